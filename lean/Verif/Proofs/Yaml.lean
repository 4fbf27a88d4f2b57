import Verif.Spec.Yaml
import Mathlib.Data.List.TakeWhile
import Mathlib.Tactic.Push

/-!
# Reading and printing parameter files: proofs
-/
namespace Verif.Yaml

open Spec
open Verif.Text (Failure cut)

/-! ## maps -/

theorem find_nil (k : Str) : find [] k = none := rfl

theorem find_cons (e : Str × Str) (m : Map) (k : Str) : find (e :: m) k = if e.1 = k then some e.2 else find m k := by
  unfold find
  rw [List.find?_cons]
  by_cases h : e.1 = k
  · simp [h]
  · simp [h]

theorem sorted_cons {e : Str × Str} {m : Map} : Sorted (e :: m) ↔ (∀ f ∈ m, e.1 < f.1) ∧ Sorted m := List.pairwise_cons

theorem mem_assign (k v : Str) (m : Map) : ∀ e ∈ assign k v m, e = (k, v) ∨ e ∈ m := by
  induction m with
  | nil =>
    intro e he
    exact Or.inl (List.mem_singleton.mp he)
  | cons f m ih =>
    intro e he
    unfold assign at he
    split at he
    · rcases List.mem_cons.mp he with h | h
      · exact Or.inl h
      · exact Or.inr h
    · split at he
      · rcases List.mem_cons.mp he with h | h
        · exact Or.inl h
        · exact Or.inr (List.mem_cons_of_mem _ h)
      · rcases List.mem_cons.mp he with h | h
        · exact Or.inr (by rw [h]; exact List.mem_cons_self)
        · rcases ih e h with h | h
          · exact Or.inl h
          · exact Or.inr (List.mem_cons_of_mem _ h)

theorem assign_sorted (k v : Str) (m : Map) (h : Sorted m) : Sorted (assign k v m) := by
  induction m with
  | nil => exact List.pairwise_singleton _ _
  | cons f m ih =>
    rw [sorted_cons] at h
    unfold assign
    split
    · rename_i hlt
      rw [sorted_cons, sorted_cons]
      refine ⟨?_, h⟩
      intro g hg
      rcases List.mem_cons.mp hg with rfl | hg
      · exact hlt
      · exact lt_trans hlt (h.1 g hg)
    · rename_i hlt
      split
      · rename_i he
        rw [sorted_cons]
        exact ⟨fun g hg => by have := h.1 g hg; rw [he] at this; exact this, h.2⟩
      · rename_i he
        rw [sorted_cons]
        refine ⟨?_, ih h.2⟩
        intro g hg
        rcases mem_assign k v m g hg with rfl | hg
        · exact lt_of_le_of_ne (not_lt.mp hlt) he
        · exact h.1 g hg

theorem find_assign (k v : Str) (m : Map) (k' : Str) (h : Sorted m) : find (assign k v m) k' = if k = k' then some v else find m k' := by
  induction m with
  | nil => unfold assign; rw [find_cons]
  | cons f m ih =>
    rw [sorted_cons] at h
    unfold assign
    split
    · rename_i hlt
      rw [find_cons]
    · split
      · rename_i he
        rw [find_cons, find_cons, he]
        by_cases hk : k = k'
        · rw [if_pos hk, if_pos hk]
        · rw [if_neg hk, if_neg hk, if_neg hk]
      · rename_i he
        rw [find_cons, find_cons, ih h.2]
        by_cases hk : k = k'
        · rw [if_pos hk, if_pos hk, if_neg (by rw [← hk]; exact he)]
        · rw [if_neg hk, if_neg hk]

/-- a larger key is appended -/
theorem assign_append (k v : Str) (m : Map) (h : ∀ e ∈ m, e.1 < k) : assign k v m = m ++ [(k, v)] := by
  induction m with
  | nil => rfl
  | cons f m ih =>
    have hf := h f List.mem_cons_self
    unfold assign
    rw [if_neg (not_lt.mpr hf.le), if_neg hf.ne, ih (fun e he => h e (List.mem_cons_of_mem _ he))]
    rfl

/-! ## blanks -/

theorem isBlank_iff (c : Char) : isBlank c = true ↔ c = ' ' ∨ c = '\t' := by
  unfold isBlank
  simp

theorem trimmed_head {c : Char} {s : Str} (h : Trimmed (c :: s)) : isBlank c = false := by
  have := h c (Or.inl rfl)
  rw [← Bool.not_eq_true, isBlank_iff]
  tauto

theorem dropWhile_trimmed (a : Str) (s : Str) (ha : ∀ c ∈ a, isBlank c = true) (hs : ∀ c, s.head? = some c → isBlank c = false) :
    (a ++ s).dropWhile isBlank = s := by
  rw [List.dropWhile_append_of_pos ha]
  cases s with
  | nil => rfl
  | cons c s => rw [List.dropWhile_cons, if_neg (by rw [hs c rfl]; simp)]

/-- blanks around a text are removed -/
theorem stripBlanks_spec (a b s : Str) (ha : ∀ c ∈ a, isBlank c = true) (hb : ∀ c ∈ b, isBlank c = true) (hs : Trimmed s) :
    stripBlanks (a ++ (s ++ b)) = s := by
  unfold stripBlanks
  cases s with
  | nil =>
    rw [if_pos]
    unfold isEmptyLine
    rw [List.isEmpty_iff, List.dropWhile_eq_nil_iff]
    intro c hc
    rcases List.mem_append.mp hc with h | h
    · exact ha c h
    · exact hb c h
  | cons c r =>
    have hd : (a ++ ((c :: r) ++ b)).dropWhile isBlank = (c :: r) ++ b := by
      apply dropWhile_trimmed _ _ ha
      intro x hx
      injection hx with hx
      rw [← hx]
      exact trimmed_head hs
    unfold isEmptyLine
    rw [hd, if_neg (by simp)]
    dsimp only
    rw [List.reverse_append]
    have : (b.reverse ++ (c :: r).reverse).dropWhile isBlank = (c :: r).reverse := by
      apply dropWhile_trimmed
      · intro x hx
        exact hb x (List.mem_reverse.mp hx)
      · intro x hx
        rw [List.head?_reverse] at hx
        have := hs x (Or.inr hx)
        rw [← Bool.not_eq_true, isBlank_iff]
        tauto
    rw [this, List.reverse_reverse]

theorem stripBlanks_trimmed (s : Str) : Trimmed (stripBlanks s) ∧ ∀ c ∈ stripBlanks s, c ∈ s := by
  unfold stripBlanks
  split
  · refine ⟨?_, by simp⟩
    intro c hc
    rcases hc with hc | hc <;> cases hc
  · rename_i h
    have hne : s.dropWhile isBlank ≠ [] := by
      intro e
      exact h (by unfold isEmptyLine; rw [e]; rfl)
    dsimp only
    generalize hm : s.dropWhile isBlank = m at hne
    have hhead : ∀ c, m.head? = some c → isBlank c = false := by
      intro c hc
      have h1 : s.dropWhile isBlank ≠ [] := by rw [hm]; exact hne
      have := List.head_dropWhile_not isBlank h1
      rw [List.head?_eq_some_head hne] at hc
      injection hc with hc
      rw [← hc]
      simp only [hm] at this
      simpa using this
    have hmem : ∀ c ∈ m, c ∈ s := by
      intro c hc
      rw [← hm] at hc
      exact (List.dropWhile_sublist _).subset hc
    have hsub : ∀ c ∈ (m.reverse.dropWhile isBlank).reverse, c ∈ m := by
      intro c hc
      exact List.mem_reverse.mp ((List.dropWhile_sublist _).subset (List.mem_reverse.mp hc))
    refine ⟨?_, fun c hc => hmem c (hsub c hc)⟩
    -- the reversed list stops at the head of m
    obtain ⟨x, r, rfl⟩ := List.exists_cons_of_ne_nil hne
    have hx := hhead x rfl
    have hd : (x :: r).reverse.dropWhile isBlank = r.reverse.dropWhile isBlank ++ [x] := by
      rw [List.reverse_cons, List.dropWhile_append]
      split
      · rename_i he
        rw [List.isEmpty_iff] at he
        rw [he, List.dropWhile_cons, if_neg (by rw [hx]; simp)]
        rfl
      · rfl
    rw [hd, List.reverse_append]
    intro c hc
    have : isBlank c = false := by
      rcases hc with hc | hc
      · have e : c = x := by
          have : ([x].reverse ++ (r.reverse.dropWhile isBlank).reverse).head? = some x := rfl
          rw [this] at hc
          injection hc with hc
          exact hc.symm
        rw [e]
        exact hx
      · rw [← List.reverse_append, ← hd, List.getLast?_reverse] at hc
        have hne2 : (x :: r).reverse.dropWhile isBlank ≠ [] := by
          rw [hd]
          simp
        have := List.head_dropWhile_not isBlank hne2
        rw [List.head?_eq_some_head hne2] at hc
        injection hc with hc
        rw [hc] at this
        simpa using this
    rw [← Bool.not_eq_true, isBlank_iff] at this
    tauto

/-! ## lines -/

theorem cut_spec (x : Char) (u v : Str) (hx : x ∉ u) : cut x (u ++ x :: v) = (u, some v) := by
  unfold cut
  have h1 : ∀ y ∈ u, decide (y ≠ x) = true := by
    intro y hy
    rw [decide_eq_true_eq]
    rintro rfl
    exact hx hy
  rw [List.takeWhile_append_of_pos h1, List.dropWhile_append_of_pos h1]
  simp

theorem cut_none (x : Char) (u : Str) (hx : x ∉ u) : cut x u = (u, none) := by
  unfold cut
  have h1 : ∀ y ∈ u, decide (y ≠ x) = true := by
    intro y hy
    rw [decide_eq_true_eq]
    rintro rfl
    exact hx hy
  have h2 := List.takeWhile_append_of_pos (l₂ := []) h1
  have h3 := List.dropWhile_append_of_pos (l₂ := []) h1
  rw [List.append_nil] at h2 h3
  rw [h2, h3]
  simp

/-- spaces -/
def spaces (n : Nat) : Str := List.replicate n ' '

theorem spaces_blank (n : Nat) : ∀ c ∈ spaces n, isBlank c = true := by
  intro c hc
  rw [List.eq_of_mem_replicate hc]
  rfl

/-- a line with a name, a colon and a text: what is read -/
theorem readLine_spec (s : Stack × Map) (n : Nat) (name text v : Str) (hn : Clean name) (hc : ':' ∉ name)
    (hv : stripBlanks (stripComments text) = v) (stack : Stack) (hi : indent n s.1 = .ok stack) :
    readLine s (spaces n ++ (name ++ ':' :: text)) =
      if v = [] then .ok (⟨stack.groups ++ [name], stack.levels⟩, s.2)
      else if n > 0 then .ok (stack, assign (fullKey stack.groups name) v s.2)
      else .ok (stack, assign name v s.2) := by
  obtain ⟨h1, h2, h3⟩ := hn
  -- the first character after the spaces
  obtain ⟨c, r, hcr, hcb, hch⟩ : ∃ c r, name ++ ':' :: text = c :: r ∧ isBlank c = false ∧ c ≠ '#' := by
    cases name with
    | nil => exact ⟨':', text, rfl, rfl, by decide⟩
    | cons c m => exact ⟨c, m ++ ':' :: text, rfl, trimmed_head h3, fun e => h1 (by rw [e]; exact List.mem_cons_self)⟩
  have hd : (spaces n ++ (name ++ ':' :: text)).dropWhile isBlank = c :: r := by
    rw [hcr]
    apply dropWhile_trimmed _ _ (spaces_blank n)
    intro x hx
    injection hx with hx
    rw [← hx]
    exact hcb
  have e1 : isCommentLine (spaces n ++ (name ++ ':' :: text)) = false := by
    unfold isCommentLine
    rw [hd]
    simpa using hch
  have e2 : isEmptyLine (spaces n ++ (name ++ ':' :: text)) = false := by
    unfold isEmptyLine
    rw [hd]
    rfl
  have e3 : stripComments (spaces n ++ (name ++ ':' :: text)) = spaces n ++ (name ++ ':' :: stripComments text) := by
    unfold stripComments
    rw [List.takeWhile_append_of_pos, List.takeWhile_append_of_pos, List.takeWhile_cons, if_pos (by decide)]
    · intro x hx
      rw [decide_eq_true_eq]
      rintro rfl
      exact h1 hx
    · intro x hx
      rw [List.eq_of_mem_replicate hx]
      decide
  have e4 : readPair (spaces n ++ (name ++ ':' :: stripComments text)) = .ok (name, v) := by
    unfold readPair
    rw [← List.append_assoc, cut_spec ':' (spaces n ++ name) _ (by
      intro hm
      rcases List.mem_append.mp hm with hm | hm
      · exact absurd (List.eq_of_mem_replicate hm) (by decide)
      · exact hc hm)]
    dsimp only
    have := stripBlanks_spec (spaces n) [] name (spaces_blank n) (by intro c hc; cases hc) h3
    rw [List.append_nil] at this
    rw [this, hv]
  have e5 : indentationOf (spaces n ++ (name ++ ':' :: stripComments text)) = n := by
    obtain ⟨c', r', hcr', hcb'⟩ : ∃ c r, name ++ ':' :: stripComments text = c :: r ∧ isBlank c = false := by
      cases name with
      | nil => exact ⟨':', _, rfl, rfl⟩
      | cons c m => exact ⟨c, m ++ ':' :: stripComments text, rfl, trimmed_head h3⟩
    unfold indentationOf
    have ht : (c' :: r').takeWhile isBlank = [] := by rw [List.takeWhile_cons, hcb']; rfl
    rw [hcr', List.takeWhile_append_of_pos (spaces_blank n), ht, List.append_nil]
    dsimp only
    rw [if_neg]
    · exact List.length_replicate
    · rw [List.length_append, List.length_cons]
      omega
  unfold readLine
  rw [e1, e2]
  simp only [Bool.not_false, Bool.and_self, if_true]
  rw [e3, e4]
  dsimp only
  rw [e5, hi]

/-- lines with their end -/
def unlines (ls : List Str) : Str := ls.flatMap (· ++ ['\n'])

theorem lines_append (l s : Str) (h : '\n' ∉ l) : lines (l ++ '\n' :: s) = l :: lines s := by
  induction l with
  | nil => simp [lines]
  | cons c l ih =>
    have hc : c ≠ '\n' := fun e => h (by rw [e]; exact List.mem_cons_self)
    rw [List.cons_append, lines, if_neg hc, ih (fun e => h (List.mem_cons_of_mem _ e))]

theorem lines_unlines (ls : List Str) (h : ∀ l ∈ ls, '\n' ∉ l) : lines (unlines ls) = ls := by
  induction ls with
  | nil => rfl
  | cons l ls ih =>
    unfold unlines
    rw [List.flatMap_cons, List.append_assoc, List.singleton_append, lines_append l _ (h l List.mem_cons_self)]
    congr 1
    exact ih (fun l hl => h l (List.mem_cons_of_mem _ hl))

theorem readLines_append (s : Stack × Map) (a b : List Str) (s' : Stack × Map) (h : readLines s a = .ok s') :
    readLines s (a ++ b) = readLines s' b := by
  induction a generalizing s with
  | nil =>
    injection h with h
    rw [h]
    rfl
  | cons l a ih =>
    unfold readLines at h
    rw [List.cons_append]
    conv_lhs => unfold readLines
    split at h
    · cases h
    · rename_i s1 h1
      exact ih s1 h

/-! ## the stack -/

/-- the levels of `n` groups, as printed -/
def lv (n : Nat) : List Nat := (List.range n).map fun j => 2 * (j + 1)

theorem lv_length (n : Nat) : (lv n).length = n := by simp [lv]

theorem lv_succ (n : Nat) : lv (n + 1) = lv n ++ [2 * (n + 1)] := by
  unfold lv
  rw [List.range_succ, List.map_append]
  rfl

theorem lv_last (n : Nat) : (lv (n + 1)).getLast? = some (2 * (n + 1)) := by
  rw [lv_succ, List.getLast?_append]
  rfl

theorem lv_dropLast (n : Nat) : (lv (n + 1)).dropLast = lv n := by
  rw [lv_succ, List.dropLast_concat]

theorem popLevels_spec (i : Nat) (hi : 0 < i) : ∀ (n : Nat) (P : List Str), P.length = n → i ≤ n →
    popLevels (2 * i) ⟨P, lv n⟩ = .ok ⟨P.take i, lv i⟩ := by
  intro n
  induction n with
  | zero => intro P _ h; omega
  | succ n ih =>
    intro P hP hin
    rw [popLevels]
    split
    · rename_i h
      have := lv_last n
      rw [show (Stack.mk P (lv (n + 1))).levels = lv (n + 1) from rfl] at h
      rw [this] at h
      cases h
    · rename_i back h
      have := lv_last n
      rw [show (Stack.mk P (lv (n + 1))).levels = lv (n + 1) from rfl] at h
      rw [this] at h
      injection h with h
      subst h
      by_cases he : i = n + 1
      · rw [if_neg (by omega), he, ← hP, List.take_length]
      · rw [if_pos (by omega)]
        have hne : P ≠ [] := by
          intro e
          rw [e] at hP
          cases hP
        rw [if_neg hne]
        dsimp only
        rw [lv_dropLast, ih P.dropLast (by rw [List.length_dropLast]; omega) (by omega)]
        congr 2
        rw [List.dropLast_eq_take, List.take_take]
        congr 1
        omega

theorem clearLevels_spec : ∀ (n : Nat) (P : List Str) (l : List Nat), P.length = n → l.length = n → clearLevels n ⟨P, l⟩ = ⟨[], []⟩ := by
  intro n
  induction n with
  | zero =>
    intro P l h1 h2
    rw [List.length_eq_zero_iff.mp h1, List.length_eq_zero_iff.mp h2]
    rfl
  | succ n ih =>
    intro P l h1 h2
    exact ih P.dropLast l.dropLast (by rw [List.length_dropLast]; omega) (by rw [List.length_dropLast]; omega)

/-- an indentation of `i` levels after a value in group `P` -/
theorem indent_at (P : List Str) (i : Nat) (h : i ≤ P.length) : indent (2 * i) ⟨P, lv P.length⟩ = .ok ⟨P.take i, lv i⟩ := by
  unfold indent
  rcases Nat.eq_zero_or_pos i with rfl | hi
  · rw [if_neg (by omega), if_neg (by simp [lv_length])]
    dsimp only
    rw [clearLevels_spec _ P (lv P.length) (lv_length _).symm rfl]
    rfl
  · rw [if_pos (by omega)]
    have he : enter (2 * i) ⟨P, lv P.length⟩ = .ok ⟨P.take i, lv i⟩ := by
      unfold enter
      obtain ⟨n, hn⟩ : ∃ n, P.length = n + 1 := ⟨P.length - 1, by omega⟩
      dsimp only
      rw [hn, lv_last]
      dsimp only
      rw [if_neg (by omega), ← hn]
      exact popLevels_spec i hi P.length P rfl h
    rw [he]
    dsimp only
    rw [if_neg]
    rw [lv_length, List.length_take]
    omega

/-- one more level after the name of a group -/
theorem indent_open (Q : List Str) (h : Q ≠ []) : indent (2 * Q.length) ⟨Q, lv (Q.length - 1)⟩ = .ok ⟨Q, lv Q.length⟩ := by
  have hl := List.length_pos_of_ne_nil h
  obtain ⟨n, hn⟩ : ∃ n, Q.length = n + 1 := ⟨Q.length - 1, by omega⟩
  have he : enter (2 * Q.length) ⟨Q, lv (Q.length - 1)⟩ = .ok ⟨Q, lv Q.length⟩ := by
    unfold enter
    dsimp only
    rw [hn, Nat.add_sub_cancel]
    cases n with
    | zero =>
      have : (lv 0).getLast? = none := rfl
      rw [this]
      dsimp only
      rw [← lv_succ]
    | succ n =>
      rw [lv_last]
      dsimp only
      rw [if_pos (by omega), ← lv_succ]
  unfold indent
  rw [if_pos (by omega), he]
  dsimp only
  rw [if_neg (by rw [lv_length]; simp)]

/-! ## keys -/

/-- group names with their colons -/
def joined (groups : List Str) : Str := groups.flatMap (· ++ [':'])

theorem fullKey_eq (groups : List Str) (name : Str) : fullKey groups name = joined groups ++ name := by
  have : ∀ (l : List Str) (a : Str), l.foldl (fun key g => key ++ (g ++ [':'])) a = a ++ joined l := by
    intro l
    induction l with
    | nil => intro a; simp [joined]
    | cons g l ih =>
      intro a
      rw [List.foldl_cons, ih]
      unfold joined
      rw [List.flatMap_cons, List.append_assoc]
  unfold fullKey
  rw [this, List.nil_append]

theorem joined_append (a b : List Str) : joined (a ++ b) = joined a ++ joined b := by
  unfold joined
  rw [List.flatMap_append]

theorem joined_cons (g : Str) (b : List Str) : joined (g :: b) = g ++ ':' :: joined b := by
  unfold joined
  rw [List.flatMap_cons, List.append_assoc]
  rfl

theorem intercalate_eq (groups : List Str) (name : Str) : List.intercalate [':'] (groups ++ [name]) = joined groups ++ name := by
  induction groups with
  | nil => simp [joined]
  | cons g groups ih =>
    rw [joined_cons, List.append_assoc, List.cons_append, List.cons_append, ← ih]
    cases groups with
    | nil => simp [List.intercalate, List.intersperse]
    | cons h groups => simp [List.intercalate, List.intersperse]

theorem splitKey_spec (groups : List Str) (name : Str) (h : ∀ p ∈ groups ++ [name], ':' ∉ p) : ∀ acc,
    splitKey (joined groups ++ name) acc = (acc ++ groups, name) := by
  induction groups with
  | nil =>
    intro acc
    rw [splitKey]
    have := cut_none ':' name (h name (by simp))
    split
    · simp [joined]
    · rename_i e
      rw [show joined [] ++ name = name by simp [joined]] at e
      rw [this] at e
      cases e
  | cons g groups ih =>
    intro acc
    have hg : ':' ∉ g := h g (by simp)
    have e : joined (g :: groups) ++ name = g ++ ':' :: (joined groups ++ name) := by
      rw [joined_cons, List.append_assoc, List.cons_append]
    rw [e, splitKey]
    have hc := cut_spec ':' g (joined groups ++ name) hg
    split
    · rename_i e'
      rw [hc] at e'
      cases e'
    · rename_i g' r e'
      rw [hc] at e'
      injection e' with h1 h2
      injection h2 with h2
      subst h1 h2
      rw [ih (fun p hp => h p (by
        rcases List.mem_append.mp hp with hp | hp
        · simp [hp]
        · simp at hp; simp [hp])) (acc ++ [g])]
      simp

/-! ## the lexicographic order -/

theorem prefix_between (q a b c : Str) (ha : q <+: a) (hc : q <+: c) (h1 : a < b) (h2 : b < c) : q <+: b := by
  induction q generalizing a b c with
  | nil => exact List.nil_prefix
  | cons x q ih =>
    obtain ⟨a', rfl⟩ := ha
    obtain ⟨c', rfl⟩ := hc
    cases b with
    | nil => exact absurd h1 (by simp)
    | cons y b =>
      rw [List.cons_append, List.cons_lt_cons_iff] at h1 h2
      have hxy : x = y := by
        rcases h1 with h1 | h1
        · rcases h2 with h2 | h2
          · exact absurd (lt_trans h1 h2) (lt_irrefl _)
          · exact absurd h2.1 h1.ne'
        · exact h1.1
      subst hxy
      have h1' : q ++ a' < b := by
        rcases h1 with h1 | h1
        · exact absurd h1 (lt_irrefl _)
        · exact h1.2
      have h2' : b < q ++ c' := by
        rcases h2 with h2 | h2
        · exact absurd h2 (lt_irrefl _)
        · exact h2.2
      have := ih (q ++ a') b (q ++ c') (List.prefix_append _ _) (List.prefix_append _ _) h1' h2'
      exact List.cons_prefix_cons.mpr ⟨rfl, this⟩

theorem joined_prefix (Q K : List Str) (name : Str) (hQ : ∀ p ∈ Q, ':' ∉ p) (hK : ∀ p ∈ K ++ [name], ':' ∉ p)
    (h : joined Q <+: joined K ++ name) : Q <+: K := by
  induction Q generalizing K with
  | nil => exact List.nil_prefix
  | cons g Q ih =>
    rw [joined_cons] at h
    cases K with
    | nil =>
      exfalso
      have hm : ':' ∈ name := by
        have := h.subset (show ':' ∈ g ++ ':' :: joined Q by simp)
        simpa [joined] using this
      exact hK name (by simp) hm
    | cons k K =>
      rw [joined_cons, List.append_assoc, List.cons_append] at h
      have hg := hQ g (by simp)
      have hk := hK k (by simp)
      obtain ⟨t, ht⟩ := h
      rw [List.append_assoc, List.cons_append] at ht
      have c1 := cut_spec ':' g (joined Q ++ t) hg
      have c2 := cut_spec ':' k (joined K ++ name) hk
      rw [ht, c2] at c1
      injection c1 with e1 e2
      injection e2 with e2
      rw [e1]
      refine List.cons_prefix_cons.mpr ⟨rfl, ih K (fun p hp => hQ p (by simp [hp])) (fun p hp => hK p (by
        rcases List.mem_append.mp hp with hp | hp
        · simp [hp]
        · simp at hp; simp [hp])) ⟨t, e2.symm⟩⟩

end Verif.Yaml
