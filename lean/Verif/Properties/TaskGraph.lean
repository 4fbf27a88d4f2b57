import Verif.Spec.TaskGraph
import Verif.Properties.LogFile

/-!
# C110: the picture of a task graph
-/
namespace Verif.TaskGraph

open Verif
open Verif.Text (showNat isDigit digit)
open Verif.Text.Spec (digitChar value)
open Verif.LogFile (Str Call row entry graphLog isResource isTask)

set_option autoImplicit false

/-! ## lines and words -/

theorem linesFrom_row (w rest cur : Str) (h : '\n' ∉ w) : linesFrom cur (w ++ '\n' :: rest) = (cur ++ w ++ ['\n']) :: linesFrom [] rest := by
  induction w generalizing cur with
  | nil => simp [linesFrom]
  | cons c w ih =>
    have hc : c ≠ '\n' := fun e => h (by simp [e])
    rw [List.cons_append, linesFrom, if_neg hc, ih _ (fun e => h (by simp [e]))]
    simp

theorem wordsFrom_word (w rest cur : Str) (h : ∀ c ∈ w, Units.isSpace c = false) (c : Char) (hc : Units.isSpace c = true) (hne : cur ++ w ≠ []) :
    wordsFrom cur (w ++ c :: rest) = (cur ++ w) :: wordsFrom [] rest := by
  induction w generalizing cur with
  | nil =>
    rw [List.append_nil] at hne
    simp [wordsFrom, hc, hne]
  | cons x w ih =>
    rw [List.cons_append, wordsFrom, if_neg (by simp [h x (by simp)]), ih _ (fun c hc => h c (by simp [hc])) (by simp)]
    simp

/-- a word: not empty, no blanks -/
def Word (w : Str) : Prop := w ≠ [] ∧ ∀ c ∈ w, Units.isSpace c = false

theorem words_row {a b c : Str} (ha : Word a) (hb : Word b) (hc : Word c) : wordsFrom [] (a ++ '\t' :: b ++ '\t' :: c ++ ['\n']) = [a, b, c] := by
  have e : a ++ '\t' :: b ++ '\t' :: c ++ ['\n'] = a ++ '\t' :: (b ++ '\t' :: (c ++ ['\n'])) := by simp
  rw [e, wordsFrom_word a _ [] ha.2 '\t' (by decide) (by simpa using ha.1), wordsFrom_word b _ [] hb.2 '\t' (by decide) (by simpa using hb.1),
    wordsFrom_word c [] [] hc.2 '\n' (by decide) (by simpa using hc.1)]
  rfl

theorem word_nl {w : Str} (h : Word w) : '\n' ∉ w := fun e => by
  have := h.2 _ e
  revert this; decide

theorem lines_row {a b c : Str} (ha : Word a) (hb : Word b) (hc : Word c) (rest : Str) :
    linesFrom [] (row a b c ++ rest) = (a ++ '\t' :: b ++ '\t' :: c ++ ['\n']) :: linesFrom [] rest := by
  have e : row a b c ++ rest = (a ++ '\t' :: b ++ '\t' :: c) ++ '\n' :: rest := by simp [row]
  rw [e, linesFrom_row]
  · simp
  · simp only [List.mem_append, List.mem_cons, not_or]
    exact ⟨⟨word_nl ha, by decide, word_nl hb⟩, by decide, word_nl hc⟩

theorem showNat_word (n : Nat) : Word (showNat n) ∧ (showNat n).all isDigit = true := by
  obtain ⟨ds, hne, hd, h, -⟩ := Text.showNat_spec n
  rw [h]
  refine ⟨⟨by simpa using hne, ?_⟩, ?_⟩
  · intro c hc
    obtain ⟨d, hd', rfl⟩ := List.mem_map.1 hc
    have := hd d hd'
    interval_cases d <;> decide
  · rw [List.all_eq_true]
    intro c hc
    obtain ⟨d, hd', rfl⟩ := List.mem_map.1 hc
    have := hd d hd'
    interval_cases d <;> decide

theorem toInt_showNat (n : Nat) : toInt (showNat n) = some n := by
  unfold toInt
  rw [if_pos ⟨(showNat_word n).1.1, (showNat_word n).2⟩]
  obtain ⟨ds, -, hd, ht, hv, -⟩ := Text.showNat_spec n
  rw [ht, ← hv, value, List.foldl_map]
  congr 1
  have : ∀ (l : List Nat) (v : Nat), (∀ d ∈ l, d < 10) → l.foldl (fun v d => v * 10 + digit (digitChar d)) v = l.foldl (fun v d => v * 10 + d) v := by
    intro l
    induction l with
    | nil => intro v _; rfl
    | cons x l ih =>
      intro v h
      rw [List.foldl_cons, List.foldl_cons, (LogFile.digitChar_plain x (h x (by simp))).2.2, ih _ (fun d hd => h d (by simp [hd]))]
  rw [this ds 0 hd]

/-! ## names -/

theorem showNat_length {n : Nat} (h1 : 1 ≤ n) : (n ≤ 9 → (showNat n).length = 1) ∧ (10 ≤ n → n ≤ 99 → (showNat n).length = 2) ∧ (100 ≤ n → n ≤ 999 → (showNat n).length = 3) := by
  unfold showNat
  rw [if_neg (by omega), List.length_map, List.length_reverse]
  refine ⟨fun h => ?_, fun h h' => ?_, fun h h' => ?_⟩
  · interval_cases n <;> simp
  · have hlog : Nat.log 10 n = 1 := (Nat.log_eq_iff (Or.inl (by norm_num))).2 ⟨by omega, by omega⟩
    rw [Nat.length_digits 10 n (by norm_num) (by omega), hlog]
  · have hlog : Nat.log 10 n = 2 := (Nat.log_eq_iff (Or.inl (by norm_num))).2 ⟨by omega, by omega⟩
    rw [Nat.length_digits 10 n (by norm_num) (by omega), hlog]

/-- C110: the label is the name of the class -/
theorem c110_label (name : Str) (h : ClassName name) : trim (mangled name) = name := by
  obtain ⟨h1, h2, -⟩ := h
  have hl := showNat_length h1
  unfold trim mangled
  rw [List.length_append]
  by_cases h9 : name.length ≤ 9
  · rw [hl.1 h9, if_neg (by omega)]
    exact List.drop_left' (hl.1 h9)
  · rw [hl.2.1 (by omega) h2, if_pos (by omega)]
    exact List.drop_left' (hl.2.1 (by omega) h2)

/-- Violation of C110: the label of a class with 100 to 999 characters starts with a digit of the length -/
theorem c110_label_violation (name : Str) (h1 : 100 ≤ name.length) (h2 : name.length ≤ 999) : ∃ d, trim (mangled name) = d :: name := by
  have hl := (showNat_length (n := name.length) (by omega)).2.2 h1 h2
  unfold trim mangled
  rw [List.length_append, if_pos (by omega), List.drop_append_of_le_length (by omega)]
  obtain ⟨d, hd⟩ := List.length_eq_one_iff.1 (show ((showNat name.length).drop 2).length = 1 by rw [List.length_drop]; omega)
  exact ⟨d, by rw [hd]; rfl⟩

theorem mangled_word {name : Str} (h : ClassName name) : Word (mangled name) := by
  refine ⟨?_, ?_⟩
  · intro e
    exact (showNat_word name.length).1.1 (List.append_eq_nil_iff.1 e).1
  · intro c hc
    rcases List.mem_append.1 hc with hc | hc
    · exact (showNat_word _).1.2 c hc
    · exact h.2.2 c hc

theorem showNat_mono {m n : Nat} (h : m ≤ n) : (showNat m).length ≤ (showNat n).length := by
  by_cases h0 : m = 0
  · subst h0
    exact Nat.one_le_iff_ne_zero.2 (fun e => (showNat_word n).1.1 (List.length_eq_zero_iff.1 e))
  · unfold showNat
    rw [if_neg h0, if_neg (by omega), List.length_map, List.length_map, List.length_reverse, List.length_reverse]
    exact Nat.le_length_digits_le 10 m n h

theorem mangled_inj {a b : Str} (h : mangled a = mangled b) : a = b := by
  have hl := congrArg List.length h
  unfold mangled at h hl
  rw [List.length_append, List.length_append] at hl
  have e : a.length = b.length := by
    rcases lt_trichotomy a.length b.length with h' | h' | h'
    · have := showNat_mono h'.le
      omega
    · exact h'
    · have := showNat_mono h'.le
      omega
  rw [e] at h
  exact List.append_cancel_left h

/-! ## reading the log -/

/-- what one call adds -/
def step (nr nt : Nat) (f : File) : Call → File
  | .resource name none => { f with resources := put f.resources nr (trim name) }
  | .resource name (some p) => { f with resources := put f.resources nr (trim name), children := f.children ++ [(nr, p)] }
  | .task name => { f with tasks := put f.tasks nt (trim name) }
  | .access t r true => { f with writes := f.writes ++ [(t, r)] }
  | .access t r false => { f with reads := f.reads ++ [(t, r)] }
  | .order a b => { f with orders := f.orders ++ [(a, b)] }

def steps (nr nt : Nat) (f : File) : List Call → File
  | [] => f
  | c :: l => steps (nr + (isResource c).toNat) (nt + (isTask c).toNat) (step nr nt f c) l

theorem words_fixed : Word "resource".toList ∧ Word "task".toList ∧ Word "readlink".toList ∧ Word "writelink".toList ∧ Word "tasklink".toList ∧ Word "child".toList := by
  refine ⟨⟨?_, ?_⟩, ⟨?_, ?_⟩, ⟨?_, ?_⟩, ⟨?_, ?_⟩, ⟨?_, ?_⟩, ⟨?_, ?_⟩⟩ <;> decide

theorem readLine_words {f : File} {a b c : Str} (ha : Word a) (hb : Word b) (hc : Word c) :
    readLine f (a ++ '\t' :: b ++ '\t' :: c ++ ['\n']) =
    if a = "resource".toList then (label [a, b, c]).map fun x => { f with resources := put f.resources x.1 x.2 }
    else if a = "task".toList then (label [a, b, c]).map fun x => { f with tasks := put f.tasks x.1 x.2 }
    else if a = "readlink".toList then (link [a, b, c]).map fun x => { f with reads := f.reads ++ [x] }
    else if a = "writelink".toList then (link [a, b, c]).map fun x => { f with writes := f.writes ++ [x] }
    else if a = "tasklink".toList then (link [a, b, c]).map fun x => { f with orders := f.orders ++ [x] }
    else if a = "child".toList then (link [a, b, c]).map fun x => { f with children := f.children ++ [x] }
    else some f := by
  unfold readLine
  rw [words_row ha hb hc]

theorem label_row (a : Str) (n : Nat) (c : Str) : label [a, showNat n, c] = some (n, trim c) := by
  unfold label
  simp only [toInt_showNat]

theorem link_row (a : Str) (n m : Nat) : link [a, showNat n, showNat m] = some (n, m) := by
  unfold link
  simp only [toInt_showNat]

theorem read_entry (nr nt : Nat) (c : Call) (hc : ∀ s, taskOf c = some s ∨ resourceOf c = some s → Word s) (rest : Str) (f : File) :
    readLines (linesFrom [] (entry nr nt c ++ rest)) f = readLines (linesFrom [] rest) (step nr nt f c) := by
  obtain ⟨w1, w2, w3, w4, w5, w6⟩ := words_fixed
  have hn := fun n => (showNat_word n).1
  cases c with
  | resource name parent =>
    have hw := hc name (Or.inr rfl)
    cases parent with
    | none =>
      simp only [entry, List.append_nil]
      rw [lines_row w1 (hn _) hw, readLines, readLine_words w1 (hn _) hw, if_pos rfl, label_row]
      rfl
    | some p =>
      simp only [entry]
      rw [List.append_assoc, lines_row w1 (hn _) hw, readLines, readLine_words w1 (hn _) hw, if_pos rfl, label_row]
      simp only [Option.map_some, Option.bind_some]
      rw [lines_row w6 (hn _) (hn _), readLines, readLine_words w6 (hn _) (hn _), if_neg (by decide), if_neg (by decide), if_neg (by decide), if_neg (by decide),
        if_neg (by decide), if_pos rfl, link_row]
      rfl
  | task name =>
    have hw := hc name (Or.inl rfl)
    simp only [entry]
    rw [lines_row w2 (hn _) hw, readLines, readLine_words w2 (hn _) hw, if_neg (by decide), if_pos rfl, label_row]
    rfl
  | access t r write =>
    cases write with
    | true =>
      simp only [entry, if_true]
      rw [lines_row w4 (hn _) (hn _), readLines, readLine_words w4 (hn _) (hn _), if_neg (by decide), if_neg (by decide), if_neg (by decide), if_pos rfl, link_row]
      rfl
    | false =>
      simp only [entry, Bool.false_eq_true, if_false]
      rw [lines_row w3 (hn _) (hn _), readLines, readLine_words w3 (hn _) (hn _), if_neg (by decide), if_neg (by decide), if_pos rfl, link_row]
      rfl
  | order a b =>
    simp only [entry]
    rw [lines_row w5 (hn _) (hn _), readLines, readLine_words w5 (hn _) (hn _), if_neg (by decide), if_neg (by decide), if_neg (by decide), if_neg (by decide), if_pos rfl, link_row]
    rfl

theorem read_log (l : List Call) (hl : Classes l) : ∀ (nr nt : Nat) (f : File), readLines (linesFrom [] (graphLog nr nt l)) f = some (steps nr nt f l) := by
  induction l with
  | nil => intro nr nt f; rfl
  | cons c l ih =>
    intro nr nt f
    rw [graphLog, read_entry nr nt c (fun s hs => by
      obtain ⟨name, h1, rfl⟩ := hl c (by simp) s hs
      exact mangled_word h1), ih (fun c' h' => hl c' (by simp [h']))]
    rfl

/-- the registrations with a parent -/
def childrenFrom (nr : Nat) : List Call → List (Nat × Nat)
  | [] => []
  | .resource _ (some p) :: l => (nr, p) :: childrenFrom (nr + 1) l
  | .resource _ none :: l => childrenFrom (nr + 1) l
  | _ :: l => childrenFrom nr l

def readOf : Call → Option (Nat × Nat)
  | .access t r false => some (t, r)
  | _ => none

def writeOf : Call → Option (Nat × Nat)
  | .access t r true => some (t, r)
  | _ => none

def orderOf : Call → Option (Nat × Nat)
  | .order a b => some (a, b)
  | _ => none

theorem steps_spec (l : List Call) : ∀ (nr nt : Nat) (f : File),
    (steps nr nt f l).reads = f.reads ++ l.filterMap readOf ∧ (steps nr nt f l).writes = f.writes ++ l.filterMap writeOf ∧
    (steps nr nt f l).orders = f.orders ++ l.filterMap orderOf ∧ (steps nr nt f l).children = f.children ++ childrenFrom nr l ∧
    (∀ i, (steps nr nt f l).tasks i = if nt ≤ i then ((l.filterMap taskOf)[i - nt]?.map trim).or (f.tasks i) else f.tasks i) ∧
    (∀ i, (steps nr nt f l).resources i = if nr ≤ i then ((l.filterMap resourceOf)[i - nr]?.map trim).or (f.resources i) else f.resources i) := by
  have key : ∀ (n i : Nat) (x : Str) (xs : List Str) (d : Nat → Option Str),
      (if n + 1 ≤ i then (xs[i - (n + 1)]?.map trim).or (put d n (trim x) i) else put d n (trim x) i)
        = if n ≤ i then ((x :: xs)[i - n]?.map trim).or (d i) else d i := by
    intro n i x xs d
    rcases lt_trichotomy i n with h | h | h
    · rw [if_neg (by omega), if_neg (by omega), put, if_neg (by omega)]
    · subst h
      rw [if_neg (by omega), if_pos le_rfl, put, if_pos rfl]
      simp
    · rw [if_pos (by omega), if_pos (by omega), put, if_neg (by omega), show i - n = (i - (n + 1)) + 1 by omega]
      simp
  induction l with
  | nil => intro nr nt f; simp [steps, childrenFrom]
  | cons c l ih =>
    intro nr nt f
    obtain ⟨h1, h2, h3, h4, h5, h6⟩ := ih (nr + (isResource c).toNat) (nt + (isTask c).toNat) (step nr nt f c)
    rw [steps]
    refine ⟨?_, ?_, ?_, ?_, ?_, ?_⟩
    · rw [h1]
      rcases c with ⟨name, _ | p⟩ | name | ⟨t, r, _ | _⟩ | ⟨a, b⟩ <;> first | rfl | exact List.append_assoc _ _ _
    · rw [h2]
      rcases c with ⟨name, _ | p⟩ | name | ⟨t, r, _ | _⟩ | ⟨a, b⟩ <;> first | rfl | exact List.append_assoc _ _ _
    · rw [h3]
      rcases c with ⟨name, _ | p⟩ | name | ⟨t, r, _ | _⟩ | ⟨a, b⟩ <;> first | rfl | exact List.append_assoc _ _ _
    · rw [h4]
      rcases c with ⟨name, _ | p⟩ | name | ⟨t, r, _ | _⟩ | ⟨a, b⟩ <;> simp [step, childrenFrom, isResource]
    · intro i
      rw [h5 i]
      rcases c with ⟨name, _ | p⟩ | name | ⟨t, r, _ | _⟩ | ⟨a, b⟩
      · rfl
      · rfl
      · exact key nt i name _ _
      · rfl
      · rfl
      · rfl
    · intro i
      rw [h6 i]
      rcases c with ⟨name, _ | p⟩ | name | ⟨t, r, _ | _⟩ | ⟨a, b⟩
      · exact key nr i name _ _
      · exact key nr i name _ _
      · rfl
      · rfl
      · rfl
      · rfl

/-! ## drawing -/

theorem addNew_mem (x y : Str) (xs : List Str) : y ∈ addNew x xs ↔ y = x ∨ y ∈ xs := by
  unfold addNew
  split
  · rename_i h
    constructor
    · exact Or.inr
    · rintro (rfl | h')
      · exact h
      · exact h'
  · rw [List.mem_append, List.mem_singleton, or_comm]

theorem addNew_nodup (x : Str) (xs : List Str) (h : xs.Nodup) : (addNew x xs).Nodup := by
  unfold addNew
  split
  · exact h
  · rename_i hx
    exact h.append (by simp) (by simpa using hx)

theorem drawOrders_spec (f : File) (xs : List (Nat × Nat)) : ∀ p : Picture, p.lines.Nodup →
    (∀ x ∈ xs, (f.tasks x.1).isSome ∧ (f.tasks x.2).isSome) →
    ∃ q, drawOrders f xs p = some q ∧ q.nodes = p.nodes ∧ q.lines.Nodup ∧
      ∀ y, y ∈ q.lines ↔ y ∈ p.lines ∨ ∃ x ∈ xs, ∃ a b, f.tasks x.1 = some a ∧ f.tasks x.2 = some b ∧ y = arrow a b [] := by
  induction xs with
  | nil => intro p hp _; exact ⟨p, rfl, rfl, hp, by simp⟩
  | cons x xs ih =>
    intro p hp h
    obtain ⟨h1, h2⟩ := h x (by simp)
    obtain ⟨a, ha⟩ := Option.isSome_iff_exists.1 h1
    obtain ⟨b, hb⟩ := Option.isSome_iff_exists.1 h2
    obtain ⟨q, hq, hn, hd, hm⟩ := ih { p with lines := addNew (a ++ "->".toList ++ b ++ ";".toList) p.lines } (addNew_nodup _ _ hp) (fun y hy => h y (by simp [hy]))
    refine ⟨q, ?_, hn, hd, ?_⟩
    · rw [drawOrders, ha, hb]
      exact hq
    · intro y
      rw [hm y]
      simp only [addNew_mem]
      constructor
      · rintro ((rfl | h') | ⟨x', hx', h'⟩)
        · exact Or.inr ⟨x, by simp, a, b, ha, hb, by simp [arrow]⟩
        · exact Or.inl h'
        · exact Or.inr ⟨x', by simp [hx'], h'⟩
      · rintro (h' | ⟨x', hx', a', b', ha', hb', rfl⟩)
        · exact Or.inl (Or.inr h')
        · rcases List.mem_cons.1 hx' with rfl | hx'
          · rw [ha] at ha'
            rw [hb] at hb'
            cases ha'
            cases hb'
            exact Or.inl (Or.inl (by simp [arrow]))
          · exact Or.inr ⟨x', hx', a', b', ha', hb', rfl⟩

theorem drawAccess_spec (f : File) (colour : Str) (xs : List (Nat × Nat)) : ∀ p : Picture, p.lines.Nodup → p.nodes.Nodup →
    (∀ x ∈ xs, (f.tasks x.1).isSome ∧ (f.resources x.2).isSome) →
    ∃ q, drawAccess f colour xs p = some q ∧ q.lines.Nodup ∧ q.nodes.Nodup ∧
      (∀ y, y ∈ q.lines ↔ y ∈ p.lines ∨
        ∃ x ∈ xs, ∃ a b, f.tasks x.1 = some a ∧ f.resources x.2 = some b ∧ y = arrow a (resNode b) ("[color=\"".toList ++ colour ++ "\"]".toList)) ∧
      ∀ y, y ∈ q.nodes ↔ y ∈ p.nodes ∨ ∃ x ∈ xs, ∃ b, f.resources x.2 = some b ∧ y = resNode b := by
  induction xs with
  | nil => intro p hp hp' _; exact ⟨p, rfl, hp, hp', by simp, by simp⟩
  | cons x xs ih =>
    intro p hp hp' h
    obtain ⟨h1, h2⟩ := h x (by simp)
    obtain ⟨a, ha⟩ := Option.isSome_iff_exists.1 h1
    obtain ⟨b, hb⟩ := Option.isSome_iff_exists.1 h2
    have e : a ++ "->".toList ++ ("res".toList ++ b) ++ ("[color=\"".toList ++ colour ++ "\"];".toList)
        = arrow a (resNode b) ("[color=\"".toList ++ colour ++ "\"]".toList) := by simp [arrow, resNode]
    obtain ⟨q, hq, hd, hd', hm, hm'⟩ := ih ⟨addNew ("res".toList ++ b) p.nodes,
      addNew (a ++ "->".toList ++ ("res".toList ++ b) ++ ("[color=\"".toList ++ colour ++ "\"];".toList)) p.lines⟩ (addNew_nodup _ _ hp) (addNew_nodup _ _ hp')
      (fun y hy => h y (by simp [hy]))
    refine ⟨q, ?_, hd, hd', ?_, ?_⟩
    · rw [drawAccess, ha, hb]
      exact hq
    · intro y
      rw [hm y]
      simp only [addNew_mem, e]
      constructor
      · rintro ((rfl | h') | ⟨x', hx', h'⟩)
        · exact Or.inr ⟨x, by simp, a, b, ha, hb, rfl⟩
        · exact Or.inl h'
        · exact Or.inr ⟨x', by simp [hx'], h'⟩
      · rintro (h' | ⟨x', hx', a', b', ha', hb', rfl⟩)
        · exact Or.inl (Or.inr h')
        · rcases List.mem_cons.1 hx' with rfl | hx'
          · rw [ha] at ha'
            rw [hb] at hb'
            cases ha'
            cases hb'
            exact Or.inl (Or.inl rfl)
          · exact Or.inr ⟨x', hx', a', b', ha', hb', rfl⟩
    · intro y
      rw [hm' y]
      simp only [addNew_mem]
      constructor
      · rintro ((rfl | h') | ⟨x', hx', h'⟩)
        · exact Or.inr ⟨x, by simp, b, hb, rfl⟩
        · exact Or.inl h'
        · exact Or.inr ⟨x', by simp [hx'], h'⟩
      · rintro (h' | ⟨x', hx', b', hb', rfl⟩)
        · exact Or.inl (Or.inr h')
        · rcases List.mem_cons.1 hx' with rfl | hx'
          · rw [hb] at hb'
            cases hb'
            exact Or.inl (Or.inl rfl)
          · exact Or.inr ⟨x', hx', b', hb', rfl⟩

theorem drawChildren_spec (f : File) (xs : List (Nat × Nat)) : ∀ p : Picture, p.lines.Nodup →
    (∀ x ∈ xs, (f.resources x.1).isSome ∧ (f.resources x.2).isSome) →
    ∃ q, drawChildren f xs p = some q ∧ q.nodes = p.nodes ∧ q.lines.Nodup ∧
      ∀ y, y ∈ q.lines ↔ y ∈ p.lines ∨
        ∃ x ∈ xs, ∃ a b, f.resources x.1 = some a ∧ f.resources x.2 = some b ∧ y = arrow (resNode a) (resNode b) "[color=\"green\"]".toList := by
  induction xs with
  | nil => intro p hp _; exact ⟨p, rfl, rfl, hp, by simp⟩
  | cons x xs ih =>
    intro p hp h
    obtain ⟨h1, h2⟩ := h x (by simp)
    obtain ⟨a, ha⟩ := Option.isSome_iff_exists.1 h1
    obtain ⟨b, hb⟩ := Option.isSome_iff_exists.1 h2
    have e : "res".toList ++ a ++ "->".toList ++ ("res".toList ++ b) ++ "[color=\"green\"];".toList = arrow (resNode a) (resNode b) "[color=\"green\"]".toList := by
      simp [arrow, resNode]
    obtain ⟨q, hq, hn, hd, hm⟩ := ih { p with lines := addNew ("res".toList ++ a ++ "->".toList ++ ("res".toList ++ b) ++ "[color=\"green\"];".toList) p.lines }
      (addNew_nodup _ _ hp) (fun y hy => h y (by simp [hy]))
    refine ⟨q, ?_, hn, hd, ?_⟩
    · rw [drawChildren, ha, hb]
      exact hq
    · intro y
      rw [hm y]
      simp only [addNew_mem, e]
      constructor
      · rintro ((rfl | h') | ⟨x', hx', h'⟩)
        · exact Or.inr ⟨x, by simp, a, b, ha, hb, rfl⟩
        · exact Or.inl h'
        · exact Or.inr ⟨x', by simp [hx'], h'⟩
      · rintro (h' | ⟨x', hx', a', b', ha', hb', rfl⟩)
        · exact Or.inl (Or.inr h')
        · rcases List.mem_cons.1 hx' with rfl | hx'
          · rw [ha] at ha'
            rw [hb] at hb'
            cases ha'
            cases hb'
            exact Or.inl (Or.inl rfl)
          · exact Or.inr ⟨x', hx', a', b', ha', hb', rfl⟩

/-! ## the picture -/

theorem mem_children (l : List Call) : ∀ (n i p : Nat), (i, p) ∈ childrenFrom n l ↔
    ∃ a name b, l = a ++ Call.resource name (some p) :: b ∧ n + (a.filterMap resourceOf).length = i := by
  induction l with
  | nil => intro n i p; simp [childrenFrom]
  | cons c l ih =>
    intro n i p
    have tail : ∀ (hc : ∀ name p', c ≠ Call.resource name (some p')) (k : Nat), k = (([c].filterMap resourceOf).length) →
        ((∃ a name b, l = a ++ Call.resource name (some p) :: b ∧ (n + k) + (a.filterMap resourceOf).length = i) ↔
          ∃ a name b, c :: l = a ++ Call.resource name (some p) :: b ∧ n + (a.filterMap resourceOf).length = i) := by
      intro hc k hk
      constructor
      · rintro ⟨a, name, b, rfl, rfl⟩
        refine ⟨c :: a, name, b, rfl, ?_⟩
        rw [hk, show c :: a = [c] ++ a from rfl, List.filterMap_append, List.length_append]
        omega
      · rintro ⟨a, name, b, h, rfl⟩
        cases a with
        | nil =>
          rw [List.nil_append] at h
          exact absurd (List.cons.inj h).1 (hc name p)
        | cons c' a =>
          obtain ⟨rfl, h'⟩ := List.cons.inj h
          refine ⟨a, name, b, h', ?_⟩
          rw [hk, show c :: a = [c] ++ a from rfl, List.filterMap_append, List.length_append]
          omega
    rcases c with ⟨name, _ | q⟩ | name | ⟨t, r, w⟩ | ⟨x, y⟩
    · rw [childrenFrom, ih]
      exact tail (by simp) 1 rfl
    · rw [childrenFrom, List.mem_cons, ih]
      constructor
      · rintro (h | ⟨a, name', b, rfl, rfl⟩)
        · cases h
          exact ⟨[], name, l, rfl, rfl⟩
        · refine ⟨Call.resource name (some q) :: a, name', b, rfl, ?_⟩
          simp only [List.filterMap_cons, resourceOf, List.length_cons]
          omega
      · rintro ⟨a, name', b, h, rfl⟩
        cases a with
        | nil =>
          rw [List.nil_append] at h
          obtain ⟨h, -⟩ := List.cons.inj h
          cases h
          exact Or.inl rfl
        | cons c' a =>
          obtain ⟨rfl, h'⟩ := List.cons.inj h
          refine Or.inr ⟨a, name', b, h', ?_⟩
          simp only [List.filterMap_cons, resourceOf, List.length_cons]
          omega
    · rw [childrenFrom, ih]
      · exact tail (by simp) 0 rfl
      all_goals simp
    · rw [childrenFrom, ih]
      · exact tail (by simp) 0 rfl
      all_goals simp
    · rw [childrenFrom, ih]
      · exact tail (by simp) 0 rfl
      all_goals simp

/-- C110: the picture of a log has the expected arrows, each of them once, and the resources that are used are its nodes -/
theorem c110_picture (l : List Call) (hc : Classes l) (hr : Registered l) :
    ∃ p, picture (graphLog 0 0 l) = some p ∧ p.lines.Nodup ∧ (∀ y, y ∈ p.lines ↔ Arrow l y) ∧
      p.nodes.Nodup ∧ ∀ y, y ∈ p.nodes ↔ ∃ R, Accessed l R ∧ y = resNode R := by
  obtain ⟨h1, h2, h3, h4, h5, h6⟩ := steps_spec l 0 0 File.empty
  have hread := read_log l hc 0 0 File.empty
  generalize steps 0 0 File.empty l = f at h1 h2 h3 h4 h5 h6 hread
  have htask : ∀ i A, f.tasks i = some A ↔ TaskClass l i A := by
    intro i A
    rw [h5 i, if_pos (Nat.zero_le i), Nat.sub_zero]
    change ((l.filterMap taskOf)[i]?.map trim).or none = _ ↔ _
    rw [Option.or_none, Option.map_eq_some_iff]
    constructor
    · rintro ⟨s, hs, rfl⟩
      obtain ⟨c, hcl, hcs⟩ := List.mem_filterMap.1 (List.mem_of_getElem? hs)
      obtain ⟨name, hn, rfl⟩ := hc c hcl s (Or.inl hcs)
      unfold TaskClass
      rw [hs, c110_label name hn]
    · intro hs
      refine ⟨_, hs, ?_⟩
      obtain ⟨c, hcl, hcs⟩ := List.mem_filterMap.1 (List.mem_of_getElem? hs)
      obtain ⟨name, hn, he⟩ := hc c hcl _ (Or.inl hcs)
      rw [mangled_inj he, c110_label name hn]
  have hres : ∀ i A, f.resources i = some A ↔ ResourceClass l i A := by
    intro i A
    rw [h6 i, if_pos (Nat.zero_le i), Nat.sub_zero]
    change ((l.filterMap resourceOf)[i]?.map trim).or none = _ ↔ _
    rw [Option.or_none, Option.map_eq_some_iff]
    constructor
    · rintro ⟨s, hs, rfl⟩
      obtain ⟨c, hcl, hcs⟩ := List.mem_filterMap.1 (List.mem_of_getElem? hs)
      obtain ⟨name, hn, rfl⟩ := hc c hcl s (Or.inr hcs)
      unfold ResourceClass
      rw [hs, c110_label name hn]
    · intro hs
      refine ⟨_, hs, ?_⟩
      obtain ⟨c, hcl, hcs⟩ := List.mem_filterMap.1 (List.mem_of_getElem? hs)
      obtain ⟨name, hn, he⟩ := hc c hcl _ (Or.inr hcs)
      rw [mangled_inj he, c110_label name hn]
  have hts : ∀ i, i < (l.filterMap taskOf).length → (f.tasks i).isSome := by
    intro i hi
    rw [h5 i, if_pos (Nat.zero_le i), Nat.sub_zero, List.getElem?_eq_getElem hi]
    rfl
  have hrs : ∀ i, i < (l.filterMap resourceOf).length → (f.resources i).isSome := by
    intro i hi
    rw [h6 i, if_pos (Nat.zero_le i), Nat.sub_zero, List.getElem?_eq_getElem hi]
    rfl
  change f.reads = l.filterMap readOf at h1
  change f.writes = l.filterMap writeOf at h2
  change f.orders = l.filterMap orderOf at h3
  change f.children = childrenFrom 0 l at h4
  have mr : ∀ x : Nat × Nat, x ∈ f.reads ↔ Call.access x.1 x.2 false ∈ l := by
    intro x
    rw [h1, List.mem_filterMap]
    constructor
    · rintro ⟨c, hcl, h⟩
      rcases c with ⟨name, _ | p⟩ | name | ⟨t, r, _ | _⟩ | ⟨a, b⟩ <;> cases h
      exact hcl
    · intro h
      exact ⟨_, h, rfl⟩
  have mw : ∀ x : Nat × Nat, x ∈ f.writes ↔ Call.access x.1 x.2 true ∈ l := by
    intro x
    rw [h2, List.mem_filterMap]
    constructor
    · rintro ⟨c, hcl, h⟩
      rcases c with ⟨name, _ | p⟩ | name | ⟨t, r, _ | _⟩ | ⟨a, b⟩ <;> cases h
      exact hcl
    · intro h
      exact ⟨_, h, rfl⟩
  have mo : ∀ x : Nat × Nat, x ∈ f.orders ↔ Call.order x.1 x.2 ∈ l := by
    intro x
    rw [h3, List.mem_filterMap]
    constructor
    · rintro ⟨c, hcl, h⟩
      rcases c with ⟨name, _ | p⟩ | name | ⟨t, r, _ | _⟩ | ⟨a, b⟩ <;> cases h
      exact hcl
    · intro h
      exact ⟨_, h, rfl⟩
  have mc : ∀ x : Nat × Nat, x ∈ f.children ↔ Child l x.1 x.2 := by
    intro x
    rw [h4, mem_children l 0 x.1 x.2]
    simp only [Nat.zero_add]
    rfl
  have hchild : ∀ i p, Child l i p → i < (l.filterMap resourceOf).length := by
    rintro i p ⟨a, name, b, rfl, rfl⟩
    rw [List.filterMap_append, List.length_append]
    simp only [List.filterMap_cons, resourceOf, List.length_cons]
    omega
  obtain ⟨p1, e1, n1, d1, m1⟩ := drawOrders_spec f f.orders ⟨[], []⟩ List.nodup_nil (fun x hx => by
    have := hr.2.1 _ _ ((mo x).1 hx)
    exact ⟨hts _ this.1, hts _ this.2⟩)
  obtain ⟨p2, e2, d2, d2', m2, m2'⟩ := drawAccess_spec f "blue".toList f.reads p1 d1 (by rw [n1]; exact List.nodup_nil) (fun x hx => by
    have := hr.1 _ _ _ ((mr x).1 hx)
    exact ⟨hts _ this.1, hrs _ this.2⟩)
  obtain ⟨p3, e3, d3, d3', m3, m3'⟩ := drawAccess_spec f "red".toList f.writes p2 d2 d2' (fun x hx => by
    have := hr.1 _ _ _ ((mw x).1 hx)
    exact ⟨hts _ this.1, hrs _ this.2⟩)
  obtain ⟨p4, e4, n4, d4, m4⟩ := drawChildren_spec f f.children p3 d3 (fun x hx => by
    have h := (mc x).1 hx
    exact ⟨hrs _ (hchild _ _ h), hrs _ (hr.2.2 _ _ h)⟩)
  refine ⟨p4, ?_, d4, ?_, by rw [n4]; exact d3', ?_⟩
  · unfold picture
    rw [hread, Option.bind_some, e1, Option.bind_some, e2, Option.bind_some, e3, Option.bind_some, e4]
  · intro y
    rw [m4 y, m3 y, m2 y, m1 y]
    constructor
    · rintro ((((h | ⟨x, hx, a, b, ha, hb, rfl⟩) | ⟨x, hx, a, b, ha, hb, rfl⟩) | ⟨x, hx, a, b, ha, hb, rfl⟩) | ⟨x, hx, a, b, ha, hb, rfl⟩)
      · simp at h
      · exact .order ((mo x).1 hx) ((htask _ _).1 ha) ((htask _ _).1 hb)
      · exact .reads ((mr x).1 hx) ((htask _ _).1 ha) ((hres _ _).1 hb)
      · exact .writes ((mw x).1 hx) ((htask _ _).1 ha) ((hres _ _).1 hb)
      · exact .child ((mc x).1 hx) ((hres _ _).1 ha) ((hres _ _).1 hb)
    · intro h
      cases h with
      | order h ha hb => exact Or.inl (Or.inl (Or.inl (Or.inr ⟨(_, _), (mo _).2 h, _, _, (htask _ _).2 ha, (htask _ _).2 hb, rfl⟩)))
      | reads h ha hb => exact Or.inl (Or.inl (Or.inr ⟨(_, _), (mr _).2 h, _, _, (htask _ _).2 ha, (hres _ _).2 hb, rfl⟩))
      | writes h ha hb => exact Or.inl (Or.inr ⟨(_, _), (mw _).2 h, _, _, (htask _ _).2 ha, (hres _ _).2 hb, rfl⟩)
      | child h ha hb => exact Or.inr ⟨(_, _), (mc _).2 h, _, _, (hres _ _).2 ha, (hres _ _).2 hb, rfl⟩
  · intro y
    rw [n4, m3' y, m2' y, n1]
    constructor
    · rintro ((h | ⟨x, hx, b, hb, rfl⟩) | ⟨x, hx, b, hb, rfl⟩)
      · simp at h
      · exact ⟨b, ⟨_, _, _, (mr x).1 hx, (hres _ _).1 hb⟩, rfl⟩
      · exact ⟨b, ⟨_, _, _, (mw x).1 hx, (hres _ _).1 hb⟩, rfl⟩
    · rintro ⟨R, ⟨t, r, w, h, hR⟩, rfl⟩
      cases w with
      | false => exact Or.inl (Or.inr ⟨(t, r), (mr (t, r)).2 h, R, (hres _ _).2 hR, rfl⟩)
      | true => exact Or.inr ⟨(t, r), (mw (t, r)).2 h, R, (hres _ _).2 hR, rfl⟩

theorem lines_flatMap (g : Str → Str) (xs : List Str) (h : ∀ x ∈ xs, '\n' ∉ g x) (rest : Str) :
    linesFrom [] (xs.flatMap (fun x => g x ++ ['\n']) ++ rest) = xs.map (fun x => g x ++ ['\n']) ++ linesFrom [] rest := by
  induction xs with
  | nil => rfl
  | cons x xs ih =>
    rw [List.flatMap_cons, List.append_assoc, List.append_assoc, List.singleton_append, linesFrom_row _ _ _ (h x (by simp)),
      ih (fun y hy => h y (by simp [hy]))]
    simp

/-- C110: the lines of the output file: one for every node, which shows the name of the resource, and one for every arrow -/
theorem c110_dot (p : Picture) (names : List Str) (hn : p.nodes = names.map resNode) (h1 : ∀ r ∈ names, '\n' ∉ r) (h2 : ∀ a ∈ p.lines, '\n' ∉ a) :
    linesFrom [] (dot p) = ["digraph task_flow{\n".toList] ++ names.map (fun r => resNode r ++ "[label=\"".toList ++ r ++ "\" color=\"blue\"];\n".toList)
      ++ p.lines.map (fun a => a ++ ['\n']) ++ ["}".toList] := by
  have e1 : (p.nodes.flatMap (fun n => n ++ "[label=\"".toList ++ n.drop 3 ++ "\" color=\"blue\"];\n".toList))
      = names.flatMap (fun r => (resNode r ++ "[label=\"".toList ++ r ++ "\" color=\"blue\"];".toList) ++ ['\n']) := by
    rw [hn, List.flatMap_map]
    congr 1
    funext r
    rw [show (resNode r).drop 3 = r from rfl, show "\" color=\"blue\"];\n".toList = "\" color=\"blue\"];".toList ++ ['\n'] by decide]
    simp only [List.append_assoc]
  have e2 : (fun r => resNode r ++ "[label=\"".toList ++ r ++ "\" color=\"blue\"];\n".toList)
      = fun r => (resNode r ++ "[label=\"".toList ++ r ++ "\" color=\"blue\"];".toList) ++ ['\n'] := by
    funext r
    rw [show "\" color=\"blue\"];\n".toList = "\" color=\"blue\"];".toList ++ ['\n'] by decide]
    simp only [List.append_assoc]
  unfold dot
  rw [e1, e2, show "digraph task_flow{\n".toList = "digraph task_flow{".toList ++ ['\n'] by decide]
  simp only [List.append_assoc]
  rw [List.singleton_append, linesFrom_row _ _ _ (by decide)]
  have := lines_flatMap (fun r => resNode r ++ "[label=\"".toList ++ r ++ "\" color=\"blue\"];".toList) names (by
    intro r hr
    simp only [resNode, List.mem_append, not_or]
    exact ⟨⟨⟨⟨by decide, h1 r hr⟩, by decide⟩, h1 r hr⟩, by decide⟩)
  simp only [List.append_assoc] at this
  rw [this, lines_flatMap (fun a => a) p.lines h2]
  simp [linesFrom]

/-! ## an example -/

/-- two tasks of different classes, the first of which writes a part of a resource that the second one reads -/
def calls : List Call :=
  [.resource (mangled "Grid".toList) none, .resource (mangled "TMatrixResource".toList) none, .resource (mangled "Part".toList) (some 1),
    .task (mangled "GridTask".toList), .task (mangled "TMatrixM0Task".toList), .order 0 1, .access 0 0 true, .access 1 0 false, .access 1 2 true]

theorem calls_classes : Classes calls := by
  intro c hc s hs
  simp only [calls, List.mem_cons, List.not_mem_nil, or_false] at hc
  have k : ∀ name, 1 ≤ name.length ∧ name.length ≤ 99 ∧ (name.all fun c => !Units.isSpace c) = true → ClassName name := by
    intro name h
    refine ⟨h.1, h.2.1, fun c hc => ?_⟩
    have := List.all_eq_true.1 h.2.2 c hc
    simpa using this
  rcases hc with rfl | rfl | rfl | rfl | rfl | rfl | rfl | rfl | rfl <;> rcases hs with hs | hs <;> cases hs
  · exact ⟨_, k _ (by decide), rfl⟩
  · exact ⟨_, k _ (by decide), rfl⟩
  · exact ⟨_, k _ (by decide), rfl⟩
  · exact ⟨_, k _ (by decide), rfl⟩
  · exact ⟨_, k _ (by decide), rfl⟩

theorem calls_registered : Registered calls := by
  refine ⟨?_, ?_, ?_⟩
  · intro t r w h
    simp only [calls, List.mem_cons, List.not_mem_nil, or_false, Call.access.injEq, reduceCtorEq, false_or] at h
    rcases h with ⟨rfl, rfl, -⟩ | ⟨rfl, rfl, -⟩ | ⟨rfl, rfl, -⟩ <;> exact ⟨by decide, by decide⟩
  · intro a b h
    simp only [calls, List.mem_cons, List.not_mem_nil, or_false, Call.order.injEq, reduceCtorEq, false_or] at h
    obtain ⟨rfl, rfl⟩ := h
    exact ⟨by decide, by decide⟩
  · intro i p h
    have := (mem_children calls 0 i p).2 (by simpa [Child] using h)
    have e : childrenFrom 0 calls = [(2, 1)] := rfl
    rw [e, List.mem_singleton] at this
    cases this
    decide

example : ∃ p, picture (graphLog 0 0 calls) = some p ∧ "GridTask->TMatrixM0Task;".toList ∈ p.lines ∧
    "TMatrixM0Task->resGrid[color=\"blue\"];".toList ∈ p.lines ∧ "resPart->resTMatrixResource[color=\"green\"];".toList ∈ p.lines := by
  obtain ⟨p, hp, -, h, -⟩ := c110_picture calls calls_classes calls_registered
  refine ⟨p, hp, (h _).2 ?_, (h _).2 ?_, (h _).2 ?_⟩
  · exact Arrow.order (a := 0) (b := 1) (A := "GridTask".toList) (B := "TMatrixM0Task".toList) (by decide) rfl rfl
  · exact Arrow.reads (t := 1) (r := 0) (A := "TMatrixM0Task".toList) (R := "Grid".toList) (by decide) rfl rfl
  · exact Arrow.child (i := 2) (p := 1) (A := "Part".toList) (B := "TMatrixResource".toList) ⟨calls.take 2, _, calls.drop 3, rfl, rfl⟩ rfl rfl

/-- Violation of C110: a resource whose parts are used, but that is not used itself, is not declared as a node: the picture shows it with the prefix `res` -/
theorem c110_parent_violation : ∃ p, picture (graphLog 0 0 calls) = some p ∧
    "resPart->resTMatrixResource[color=\"green\"];".toList ∈ p.lines ∧ "resTMatrixResource".toList ∉ p.nodes := by
  obtain ⟨p, hp, -, h, -, hn⟩ := c110_picture calls calls_classes calls_registered
  refine ⟨p, hp, (h _).2 ?_, ?_⟩
  · exact Arrow.child (i := 2) (p := 1) (A := "Part".toList) (B := "TMatrixResource".toList) ⟨calls.take 2, _, calls.drop 3, rfl, rfl⟩ rfl rfl
  · rw [hn]
    rintro ⟨R, ⟨t, r, w, hm, hR⟩, e⟩
    have hR' : R = "TMatrixResource".toList := (List.append_cancel_left (as := "res".toList) e).symm
    subst hR'
    simp only [calls, List.mem_cons, List.not_mem_nil, or_false, Call.access.injEq, reduceCtorEq, false_or] at hm
    unfold ResourceClass at hR
    rcases hm with ⟨-, rfl, -⟩ | ⟨-, rfl, -⟩ | ⟨-, rfl, -⟩ <;> revert hR <;> decide +kernel

end Verif.TaskGraph
