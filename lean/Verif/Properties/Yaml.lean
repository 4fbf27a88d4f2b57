import Verif.Proofs.YamlPrint
import Mathlib.Data.List.Induction

/-!
# Parameter files (C43-C45)
-/
namespace Verif.Yaml

open Spec
open Verif.Text (Failure cut)

/-! ## C43 -/

theorem trimmed_cons_strip (v : Str) (h : Trimmed v) : stripBlanks (' ' :: v) = v := by
  have := stripBlanks_spec [' '] [] v (by intro c hc; rw [List.mem_singleton.mp hc]; rfl) (by intro c hc; cases hc) h
  rwa [List.append_nil] at this

theorem stripComments_clean (s t : Str) (h : '#' ∉ s) : stripComments (s ++ '#' :: t) = s ∧ stripComments s = s := by
  have h1 : ∀ y ∈ s, decide (y ≠ '#') = true := by
    intro y hy
    rw [decide_eq_true_eq]
    rintro rfl
    exact h hy
  constructor
  · unfold stripComments
    rw [List.takeWhile_append_of_pos h1, List.takeWhile_cons, if_neg (by decide), List.append_nil]
  · unfold stripComments
    have := List.takeWhile_append_of_pos (l₂ := []) h1
    rwa [List.append_nil, List.takeWhile_nil, List.append_nil] at this

/-- **C43** A printed dictionary is read back: the same keys with the same values. -/
theorem c43_roundtrip (m : Map) (h : WellFormed m) : read (print m) = .ok m := by
  have := read_of_print (fun _ value => value) (fun e => e.2) m ?_ h.1
  · rw [show (m.map fun e => (e.1, e.2)) = m from List.map_id m] at this
    exact this
  · intro e he
    obtain ⟨hk, hv1, hv2, hv3, hv4⟩ := h.2 e he
    refine ⟨hk, ?_, hv1, hv3⟩
    dsimp only
    rw [(stripComments_clean (' ' :: e.2) [] (by simpa using hv2)).2, trimmed_cons_strip _ hv4]

/-- **C43** The file with the used values: reading it gives the values that were used. -/
theorem c43_used (m used : Map) (h : WellFormed m) (hu : ∀ e ∈ m, ∀ u, find used e.1 = some u → Value u) :
    read (printUsed used m) = .ok (m.map fun e => (e.1, (find used e.1).getD "value not used".toList)) := by
  refine read_of_print _ (fun e => (find used e.1).getD "value not used".toList) m ?_ h.1
  intro e he
  obtain ⟨hk, _, _, hv3, _⟩ := h.2 e he
  have hval : Value ((find used e.1).getD "value not used".toList) := by
    cases hf : find used e.1 with
    | none =>
      rw [Option.getD_none]
      refine ⟨by decide, by decide, by decide, ?_⟩
      intro c hc
      have : c = 'v' ∨ c = 'd' := by
        rcases hc with hc | hc
        · left; have : "value not used".toList.head? = some 'v' := by decide
          rw [this] at hc; injection hc with hc; exact hc.symm
        · right; have : "value not used".toList.getLast? = some 'd' := by decide
          rw [this] at hc; injection hc with hc; exact hc.symm
      rcases this with rfl | rfl <;> decide
    | some u => exact hu e he u hf
  obtain ⟨u1, u2, u3, u4⟩ := hval
  unfold Readable
  dsimp only
  generalize (find used e.1).getD "value not used".toList = u at *
  refine ⟨hk, ?_, u1, ?_⟩
  · have e1 : ' ' :: (u ++ " # (".toList ++ e.2 ++ ")".toList) = (' ' :: (u ++ [' '])) ++ '#' :: (" (".toList ++ e.2 ++ ")".toList) := by
      simp
    rw [e1, (stripComments_clean _ _ (by simpa using u2)).1]
    have := stripBlanks_spec [' '] [' '] u (by intro c hc; rw [List.mem_singleton.mp hc]; rfl)
      (by intro c hc; rw [List.mem_singleton.mp hc]; rfl) u4
    exact this
  · simp [u3, hv3]

/-! ### every dictionary that is read is well formed -/

theorem lines_newline (s : Str) : ∀ l ∈ lines s, '\n' ∉ l := by
  induction s with
  | nil => intro l hl; cases hl
  | cons c s ih =>
    intro l hl
    unfold lines at hl
    split at hl
    · rcases List.mem_cons.mp hl with rfl | hl
      · simp
      · exact ih l hl
    · rename_i hc
      split at hl
      · rw [List.mem_singleton.mp hl]
        intro hm
        exact hc (List.mem_singleton.mp hm).symm
      · rename_i l0 ls hls
        rw [hls] at ih
        rcases List.mem_cons.mp hl with rfl | hl
        · intro hm
          rcases List.mem_cons.mp hm with hm | hm
          · exact hc hm.symm
          · exact ih l0 List.mem_cons_self hm
        · exact ih l (List.mem_cons_of_mem _ hl)

theorem readPair_spec {line name value : Str} (h : readPair line = .ok (name, value)) (hn : '\n' ∉ line) (hh : '#' ∉ line) :
    ':' ∉ name ∧ Clean name ∧ Clean value := by
  unfold readPair at h
  split at h
  · cases h
  · rename_i k v hc
    injection h with h
    injection h with h1 h2
    subst h1 h2
    unfold cut at hc
    injection hc with c1 c2
    have hk : ∀ c ∈ k, c ∈ line := by
      intro c hc
      rw [← c1] at hc
      exact (List.takeWhile_sublist _).subset hc
    have hkc : ':' ∉ k := by
      intro hm
      rw [← c1] at hm
      have := List.mem_takeWhile_imp hm
      simp at this
    have hv : ∀ c ∈ v, c ∈ line := by
      intro c hc
      split at c2
      · cases c2
      · rename_i d e
        injection c2 with c2
        have : c ∈ line.dropWhile (· ≠ ':') := by
          rw [e, c2]
          exact List.mem_cons_of_mem _ hc
        exact (List.dropWhile_sublist _).subset this
    obtain ⟨t1, t2⟩ := stripBlanks_trimmed k
    obtain ⟨t3, t4⟩ := stripBlanks_trimmed v
    exact ⟨fun hm => hkc (t2 _ hm), ⟨fun hm => hh (hk _ (t2 _ hm)), fun hm => hn (hk _ (t2 _ hm)), t1⟩,
      ⟨fun hm => hh (hv _ (t4 _ hm)), fun hm => hn (hv _ (t4 _ hm)), t3⟩⟩

theorem mem_of_mem_dropLast {l : List Str} {g : Str} (h : g ∈ l.dropLast) : g ∈ l := (List.dropLast_sublist l).subset h

theorem popLevels_groups (i : Nat) (s : Stack) : ∀ s', popLevels i s = .ok s' → ∀ g ∈ s'.groups, g ∈ s.groups := by
  generalize hL : s.levels.length = L
  induction L using Nat.strong_induction_on generalizing s with
  | _ L ih =>
    intro s' h
    rw [popLevels] at h
    split at h
    · cases h
    · rename_i back hb
      split at h
      · split at h
        · cases h
        · intro g hg
          have hne : s.levels ≠ [] := by
            intro e
            rw [e] at hb
            cases hb
          have := List.length_pos_of_ne_nil hne
          have := ih (s.levels.length - 1) (by omega) ⟨s.groups.dropLast, s.levels.dropLast⟩ (by rw [List.length_dropLast]) s' h g hg
          exact mem_of_mem_dropLast this
      · injection h with h
        rw [h]
        exact fun g hg => hg

theorem clearLevels_groups (n : Nat) (s : Stack) : ∀ g ∈ (clearLevels n s).groups, g ∈ s.groups := by
  induction n generalizing s with
  | zero => exact fun g hg => hg
  | succ n ih =>
    intro g hg
    exact mem_of_mem_dropLast (ih _ g hg)

theorem indent_groups {n : Nat} {s s' : Stack} (h : indent n s = .ok s') : ∀ g ∈ s'.groups, g ∈ s.groups := by
  unfold indent at h
  split at h
  · split at h
    · cases h
    · rename_i s1 h1
      split at h
      · cases h
      · injection h with h
        subst h
        unfold enter at h1
        split at h1
        · split at h1
          · injection h1 with h1
            rw [← h1]
            exact fun g hg => hg
          · exact popLevels_groups _ _ _ h1
        · injection h1 with h1
          rw [← h1]
          exact fun g hg => hg
  · split at h
    · cases h
    · injection h with h
      rw [← h]
      exact clearLevels_groups _ _

/-- the names of the groups and the entries read so far -/
def Good (s : Stack × Map) : Prop := (∀ g ∈ s.1.groups, ':' ∉ g ∧ Clean g) ∧ WellFormed s.2

theorem good_assign {m : Map} (h : WellFormed m) (groups : List Str) (name v : Str) (hg : ∀ g ∈ groups, ':' ∉ g ∧ Clean g)
    (hn : ':' ∉ name ∧ Clean name) (hv : Value v) : WellFormed (assign (joined groups ++ name) v m) := by
  refine ⟨assign_sorted _ _ _ h.1, ?_⟩
  intro e he
  rcases mem_assign _ _ _ e he with rfl | he
  · refine ⟨⟨groups, name, ?_, ?_⟩, hv⟩
    · rw [intercalate_eq]
    · intro p hp
      rcases List.mem_append.mp hp with hp | hp
      · exact hg p hp
      · rw [List.mem_singleton.mp hp]
        exact hn
  · exact h.2 e he

theorem readLine_good {s s' : Stack × Map} {line : Str} (h : readLine s line = .ok s') (hn : '\n' ∉ line) (hs : Good s) : Good s' := by
  unfold readLine at h
  split at h
  · dsimp only at h
    have hl1 : '\n' ∉ stripComments line := fun hm => hn ((List.takeWhile_sublist _).subset hm)
    have hl2 : '#' ∉ stripComments line := by
      intro hm
      have := List.mem_takeWhile_imp hm
      simp at this
    split at h
    · cases h
    · rename_i name value hp
      obtain ⟨r1, r2, r3⟩ := readPair_spec hp hl1 hl2
      split at h
      · cases h
      · rename_i stack hi
        have hg : ∀ g ∈ stack.groups, ':' ∉ g ∧ Clean g := fun g hg => hs.1 g (indent_groups hi g hg)
        split at h
        · injection h with h
          subst h
          refine ⟨?_, hs.2⟩
          intro g hg'
          rcases List.mem_append.mp hg' with hg' | hg'
          · exact hg g hg'
          · rw [List.mem_singleton.mp hg']
            exact ⟨r1, r2⟩
        · rename_i hv
          split at h
          · injection h with h
            subst h
            refine ⟨hg, ?_⟩
            rw [fullKey_eq]
            exact good_assign hs.2 _ _ _ hg ⟨r1, r2⟩ ⟨hv, r3⟩
          · injection h with h
            subst h
            refine ⟨hg, ?_⟩
            exact good_assign hs.2 [] name value (by intro g hg; cases hg) ⟨r1, r2⟩ ⟨hv, r3⟩
  · injection h with h
    rw [← h]
    exact hs

theorem readLines_good (ls : List Str) : ∀ {s s' : Stack × Map}, readLines s ls = .ok s' → (∀ l ∈ ls, '\n' ∉ l) → Good s → Good s' := by
  induction ls with
  | nil =>
    intro s s' h _ hs
    injection h with h
    rw [← h]
    exact hs
  | cons l ls ih =>
    intro s s' h hn hs
    unfold readLines at h
    split at h
    · cases h
    · rename_i s1 h1
      exact ih h (fun l hl => hn l (List.mem_cons_of_mem _ hl)) (readLine_good h1 (hn l List.mem_cons_self) hs)

/-- **C43** Whatever text a dictionary was read from, it is well formed… -/
theorem c43_read_wellformed (text : Str) (m : Map) (h : read text = .ok m) : WellFormed m := by
  unfold read at h
  split at h
  · cases h
  · rename_i s hs
    injection h with h
    rw [← h]
    exact (readLines_good _ hs (lines_newline text) ⟨(by intro g hg; cases hg), List.Pairwise.nil, (by intro e he; cases he)⟩).2

/-- **C43** …so that it can be printed and read again. -/
theorem c43_read_print_read (text : Str) (m : Map) (h : read text = .ok m) : read (print m) = .ok m :=
  c43_roundtrip m (c43_read_wellformed text m h)

/-- a dictionary with groups, and what is printed for it -/
example : read ("# comment\nab: 1\ngroup:\n    x : 2 # unit\n    sub:\n\t\t\t\t\t\ty: a b:c\nz: 3").toList =
    .ok [("ab".toList, "1".toList), ("group:sub:y".toList, "a b:c".toList), ("group:x".toList, "2".toList), ("z".toList, "3".toList)] := by
  decide +kernel

/-! ## C44 -/

theorem blank_eq : (fun c : Char => decide (c = ' ' ∨ c = '\t')) = isBlank := by
  funext c
  rw [Bool.eq_iff_iff, decide_eq_true_eq, isBlank_iff]

theorem indentation_eq (line : Str) : indentation line = (line.takeWhile isBlank).length := by
  unfold indentation
  rw [blank_eq]

theorem getElem?_indentation (line : Str) : line[indentation line]? = (line.dropWhile isBlank).head? := by
  rw [indentation_eq]
  have key : ∀ a b : Str, (a ++ b)[a.length]? = b.head? := by
    intro a b
    rw [List.getElem?_append_right (le_refl _), Nat.sub_self, List.head?_eq_getElem?]
  have := key (line.takeWhile isBlank) (line.dropWhile isBlank)
  rwa [List.takeWhile_append_dropWhile] at this

theorem contents_iff (line : Str) : Contents line ↔ (!isCommentLine line && !isEmptyLine line) = true := by
  unfold Contents isCommentLine isEmptyLine
  rw [getElem?_indentation]
  cases line.dropWhile isBlank with
  | nil => simp
  | cons c r => simp

/-- removing a comment does not change the indentation of a line with contents -/
theorem indentation_strip (line : Str) (h : Contents line) : indentationOf (stripComments line) = indentation line := by
  obtain ⟨c, h1, h2⟩ := h
  rw [getElem?_indentation] at h1
  rw [indentation_eq]
  have hsp := List.takeWhile_append_dropWhile (p := isBlank) (l := line)
  obtain ⟨r, hr⟩ : ∃ r, line.dropWhile isBlank = c :: r := by
    cases hd : line.dropWhile isBlank with
    | nil => rw [hd] at h1; cases h1
    | cons x r => rw [hd] at h1; injection h1 with h1; exact ⟨r, by rw [h1]⟩
  have hcb : isBlank c = false := by
    have hne : line.dropWhile isBlank ≠ [] := by rw [hr]; simp
    have := List.head_dropWhile_not isBlank hne
    simp only [hr, List.head_cons] at this
    simpa using this
  have hbl : ∀ x ∈ line.takeWhile isBlank, isBlank x = true := fun x hx => List.mem_takeWhile_imp hx
  have hs : stripComments line = line.takeWhile isBlank ++ (c :: r.takeWhile (· ≠ '#')) := by
    unfold stripComments
    conv_lhs => rw [← hsp, hr]
    rw [List.takeWhile_append_of_pos, List.takeWhile_cons, if_pos (by simpa using h2)]
    intro x hx
    have := (isBlank_iff x).mp (hbl x hx)
    rw [decide_eq_true_eq]
    rintro rfl
    revert this
    decide
  have ht : (c :: r.takeWhile (· ≠ '#')).takeWhile isBlank = [] := by rw [List.takeWhile_cons, hcb]; rfl
  unfold indentationOf
  rw [hs, List.takeWhile_append_of_pos hbl, ht, List.append_nil]
  dsimp only
  rw [if_neg]
  rw [List.length_append, List.length_cons]
  omega

/-- the invariant of the levels: ascending and positive, with a name for every level -/
def Levels (s : Stack) : Prop := s.levels.Pairwise (· < ·) ∧ s.levels.length ≤ s.groups.length

theorem popLevels_undefined (i : Nat) (s : Stack) (h : Levels s) :
    popLevels i s = .error .undefined ↔ ∀ l, s.levels.head? = some l → i < l := by
  generalize hL : s.levels.length = L
  induction L generalizing s with
  | zero =>
    have he := List.length_eq_zero_iff.mp hL
    rw [popLevels]
    split
    · rw [he]
      simp
    · rename_i hb
      rw [he] at hb
      cases hb
  | succ L ih =>
    rw [popLevels]
    split
    · rename_i hb
      rw [List.getLast?_eq_none_iff] at hb
      rw [hb] at hL
      cases hL
    · rename_i back hb
      have hne : s.levels ≠ [] := by
        intro e
        rw [e] at hb
        cases hb
      have hdec : s.levels = s.levels.dropLast ++ [back] := by
        rw [List.getLast?_eq_some_getLast hne] at hb
        injection hb with hb
        rw [← hb, List.dropLast_append_getLast]
      have hp := h.1
      rw [hdec, List.pairwise_append] at hp
      split
      · rename_i hlt
        split
        · rename_i hg
          have := h.2
          rw [hg] at this
          simp at this
          exact absurd this hne
        · have hlv : Levels ⟨s.groups.dropLast, s.levels.dropLast⟩ := by
            refine ⟨hp.1, ?_⟩
            show s.levels.dropLast.length ≤ s.groups.dropLast.length
            rw [List.length_dropLast, List.length_dropLast]
            have := h.2
            omega
          rw [ih ⟨s.groups.dropLast, s.levels.dropLast⟩ hlv (by show s.levels.dropLast.length = L; rw [List.length_dropLast]; omega)]
          show (∀ l, s.levels.dropLast.head? = some l → i < l) ↔ _
          conv_rhs => rw [hdec]
          cases hd : s.levels.dropLast with
          | nil => simpa using hlt
          | cons x r => simp
      · rename_i hlt
        simp only [reduceCtorEq, false_iff, not_forall]
        conv => rw [hdec]
        cases hd : s.levels.dropLast with
        | nil => exact ⟨back, rfl, hlt⟩
        | cons x r =>
          refine ⟨x, rfl, ?_⟩
          have := hp.2.2 x (by rw [hd]; simp) back (by simp)
          omega

/-- the levels that remain -/
theorem popLevels_levels (i : Nat) (s : Stack) : ∀ s', popLevels i s = .ok s' → s'.levels <+: s.levels ∧ s'.levels ≠ [] := by
  generalize hL : s.levels.length = L
  induction L using Nat.strong_induction_on generalizing s with
  | _ L ih =>
    intro s' h
    rw [popLevels] at h
    split at h
    · cases h
    · rename_i back hb
      have hne : s.levels ≠ [] := by
        intro e
        rw [e] at hb
        cases hb
      split at h
      · split at h
        · cases h
        · have := List.length_pos_of_ne_nil hne
          have := ih (s.levels.length - 1) (by omega) ⟨s.groups.dropLast, s.levels.dropLast⟩ (by rw [List.length_dropLast]) s' h
          exact ⟨this.1.trans (List.dropLast_prefix _), this.2⟩
      · injection h with h
        rw [← h]
        exact ⟨List.prefix_refl _, hne⟩

theorem clearLevels_levels (n : Nat) (s : Stack) : (clearLevels n s).levels = s.levels.take (s.levels.length - n) := by
  induction n generalizing s with
  | zero => rw [clearLevels, Nat.sub_zero, List.take_length]
  | succ n ih =>
    rw [clearLevels, ih]
    show s.levels.dropLast.take (s.levels.dropLast.length - n) = _
    rw [List.dropLast_eq_take, List.take_take, List.length_take]
    congr 1
    omega

/-- what an indentation does to the levels -/
theorem indent_spec (n : Nat) (s : Stack) (h : Levels s) :
    (indent n s = .error .undefined ↔ 0 < n ∧ ∃ l, s.levels.head? = some l ∧ n < l) ∧
    ∀ s', indent n s = .ok s' → s'.levels.Pairwise (· < ·) ∧ s'.levels.length ≤ s'.groups.length ∧
      s'.levels.head? = if n = 0 then none else some (s.levels.head?.getD n) := by
  unfold indent
  by_cases hn : n > 0
  · rw [if_pos hn]
    unfold enter
    cases hb : s.levels.getLast? with
    | none =>
      have he : s.levels = [] := List.getLast?_eq_none_iff.mp hb
      dsimp only
      rw [he]
      constructor
      · split <;> simp
      · intro s' h'
        split at h'
        · cases h'
        · rename_i hl
          injection h' with h'
          subst h'
          have hl' : ([] ++ [n] : List Nat).length = s.groups.length := by
            by_contra hx
            exact hl hx
          refine ⟨by simp, hl'.le, ?_⟩
          rw [if_neg (by omega)]
          rfl
    | some back =>
      dsimp only
      have hne : s.levels ≠ [] := by
        intro e
        rw [e] at hb
        cases hb
      have hdec : s.levels = s.levels.dropLast ++ [back] := by
        rw [List.getLast?_eq_some_getLast hne] at hb
        injection hb with hb
        rw [← hb, List.dropLast_append_getLast]
      have hp := h.1
      obtain ⟨l0, r, hlr⟩ := List.exists_cons_of_ne_nil hne
      have hl0 : l0 ≤ back := by
        have hm : back ∈ s.levels := by rw [hdec]; simp
        rw [hlr] at hm hp
        rcases List.mem_cons.mp hm with hm | hm
        · exact hm.symm.le
        · exact ((List.pairwise_cons.mp hp).1 back hm).le
      by_cases hnb : n > back
      · rw [if_pos hnb]
        dsimp only
        constructor
        · constructor
          · intro hx
            split at hx <;> cases hx
          · rintro ⟨_, l, h1, h2⟩
            rw [hlr] at h1
            injection h1 with h1
            omega
        · intro s' h'
          split at h'
          · cases h'
          · rename_i hl
            injection h' with h'
            subst h'
            refine ⟨?_, ?_, ?_⟩
            · show (s.levels ++ [n]).Pairwise (· < ·)
              rw [List.pairwise_append]
              refine ⟨hp, by simp, ?_⟩
              intro a ha b hb'
              rw [List.mem_singleton.mp hb']
              rw [hdec] at ha hp
              rcases List.mem_append.mp ha with ha | ha
              · have := (List.pairwise_append.mp hp).2.2 a ha back (by simp)
                omega
              · rw [List.mem_singleton.mp ha]
                exact hnb
            · have hl' : (s.levels ++ [n]).length = s.groups.length := by
                by_contra hx
                exact hl hx
              exact hl'.le
            · rw [if_neg (by omega)]
              show (s.levels ++ [n]).head? = _
              rw [hlr]
              rfl
      · rw [if_neg hnb]
        have hu := popLevels_undefined n s h
        cases hpop : popLevels n s with
        | error e =>
          dsimp only
          refine ⟨?_, by intro s' h'; cases h'⟩
          rw [hpop] at hu
          rw [hu, hlr]
          simp [hn]
        | ok s1 =>
          dsimp only
          rw [hpop] at hu
          obtain ⟨q1, q2⟩ := popLevels_levels n s s1 hpop
          constructor
          · constructor
            · intro hx
              split at hx <;> cases hx
            · rintro ⟨_, l, h1, h2⟩
              exfalso
              have : ∀ l, s.levels.head? = some l → n < l := by
                intro l' h'
                rw [h1] at h'
                injection h' with h'
                rw [← h']
                exact h2
              cases hu.mpr this
          · intro s' h'
            split at h'
            · cases h'
            · rename_i hl
              injection h' with h'
              subst h'
              refine ⟨hp.sublist q1.sublist, ?_, ?_⟩
              · have hl' : s1.levels.length = s1.groups.length := by
                  by_contra hx
                  exact hl hx
                exact hl'.le
              · rw [if_neg (by omega)]
                obtain ⟨t, ht⟩ := q1
                obtain ⟨a, b, hab⟩ := List.exists_cons_of_ne_nil q2
                rw [← ht, hab]
                rfl
  · rw [if_neg hn]
    constructor
    · constructor
      · intro hx
        split at hx <;> cases hx
      · rintro ⟨h1, _⟩
        exact absurd h1 hn
    · intro s' h'
      split at h'
      · cases h'
      · injection h' with h'
        have hl := clearLevels_levels s.levels.length s
        rw [Nat.sub_self, List.take_zero, h'] at hl
        rw [hl, if_pos (by omega)]
        exact ⟨List.Pairwise.nil, Nat.zero_le _, rfl⟩

/-- one line -/
theorem readLine_levels (s : Stack × Map) (line : Str) (h : Levels s.1) :
    (readLine s line = .error .undefined ↔ Contents line ∧ ':' ∈ stripComments line ∧ 0 < indentation line ∧
      ∃ l, s.1.levels.head? = some l ∧ indentation line < l) ∧
    ∀ s', readLine s line = .ok s' → Levels s'.1 ∧ (¬ Contents line → s'.1.levels.head? = s.1.levels.head?) ∧
      (Contents line → s'.1.levels.head? = if indentation line = 0 then none else some (s.1.levels.head?.getD (indentation line))) := by
  have hpair : ∀ l, (∃ p, readPair l = .ok p) ↔ ':' ∈ l := by
    intro l
    unfold readPair cut
    constructor
    · intro ⟨p, hp⟩
      by_contra hx
      split at hp
      · cases hp
      · rename_i hc
        injection hc with _ c2
        split at c2
        · cases c2
        · rename_i e
          have : l.dropWhile (· ≠ ':') = [] := by
            rw [List.dropWhile_eq_nil_iff]
            intro c hc
            rw [decide_eq_true_eq]
            rintro rfl
            exact hx hc
          rw [this] at e
          cases e
    · intro hm
      split
      · rename_i hc
        injection hc with _ c2
        split at c2
        · rename_i e
          rw [List.dropWhile_eq_nil_iff] at e
          have := e ':' hm
          simp at this
        · cases c2
      · exact ⟨_, rfl⟩
  have hperr : ∀ l e, readPair l = .error e → e = .error := by
    intro l e he
    unfold readPair at he
    split at he
    · injection he with he
      exact he.symm
    · cases he
  by_cases hc : Contents line
  · have hi := indent_spec (indentation line) s.1 h
    have hcond := (contents_iff line).mp hc
    unfold readLine
    rw [if_pos hcond]
    dsimp only
    rw [indentation_strip line hc]
    cases hp : readPair (stripComments line) with
    | error e =>
      have hx : ¬ ':' ∈ stripComments line := by
        intro hm
        obtain ⟨p, hp'⟩ := (hpair _).mpr hm
        rw [hp] at hp'
        cases hp'
      rw [hperr _ _ hp]
      refine ⟨⟨fun h => (by cases h), fun h => absurd h.2.1 hx⟩, fun s' h => (by cases h)⟩
    | ok p =>
      obtain ⟨name, value⟩ := p
      have hx : ':' ∈ stripComments line := (hpair _).mp ⟨_, hp⟩
      dsimp only
      cases hs : indent (indentation line) s.1 with
      | error e =>
        dsimp only
        rw [hs] at hi
        refine ⟨?_, fun s' h => by cases h⟩
        constructor
        · intro h'
          injection h' with h'
          have := hi.1.mp (by rw [h'])
          exact ⟨hc, hx, this⟩
        · rintro ⟨_, _, h'⟩
          have := hi.1.mpr h'
          injection this with this
          rw [this]
      | ok stack =>
        dsimp only
        rw [hs] at hi
        obtain ⟨k1, k2, k3⟩ := hi.2 stack rfl
        constructor
        · constructor
          · intro h'
            split at h'
            · cases h'
            · split at h' <;> cases h'
          · rintro ⟨_, _, h'⟩
            cases hi.1.mpr h'
        · intro s' h'
          have hst : s'.1.levels = stack.levels ∧ stack.groups.length ≤ s'.1.groups.length := by
            split at h'
            · injection h' with h'
              subst h'
              exact ⟨rfl, by simp⟩
            · split at h' <;> (injection h' with h'; subst h'; exact ⟨rfl, le_refl _⟩)
          refine ⟨⟨by rw [hst.1]; exact k1, by rw [hst.1]; omega⟩, fun hn => absurd hc hn, fun _ => by rw [hst.1]; exact k3⟩
  · have hcond : ¬ (!isCommentLine line && !isEmptyLine line) = true := fun hx => hc ((contents_iff line).mpr hx)
    unfold readLine
    rw [if_neg hcond]
    refine ⟨⟨fun h => (by cases h), fun h => absurd h.1 hc⟩, ?_⟩
    intro s' h'
    injection h' with h'
    rw [← h']
    exact ⟨h, fun _ => rfl, fun hx => absurd hx hc⟩

theorem readLines_concat (s : Stack × Map) (a : List Str) (l : Str) (s' : Stack × Map) :
    readLines s (a ++ [l]) = .ok s' ↔ ∃ s1, readLines s a = .ok s1 ∧ readLine s1 l = .ok s' := by
  induction a generalizing s with
  | nil =>
    rw [List.nil_append]
    unfold readLines readLines
    constructor
    · intro h
      split at h
      · cases h
      · rename_i s2 h2
        injection h with h
        exact ⟨s, rfl, by rw [h2, h]⟩
    · rintro ⟨s1, h1, h2⟩
      injection h1 with h1
      subst h1
      rw [h2]
  | cons x a ih =>
    rw [List.cons_append]
    unfold readLines
    cases readLine s x with
    | error e => simp
    | ok s1 => exact ih s1

/-- after the lines `a`, the first of the levels is the first indentation since the last line that is not indented -/
theorem first_level (a : List Str) : ∀ s, readLines (⟨[], []⟩, []) a = .ok s → Levels s.1 ∧ FirstLevel a s.1.levels.head? := by
  induction a using List.reverseRecOn with
  | nil =>
    intro s h
    injection h with h
    rw [← h]
    exact ⟨⟨List.Pairwise.nil, Nat.le_refl _⟩, FirstLevel.start⟩
  | append_singleton a l ih =>
    intro s h
    obtain ⟨s1, h1, h2⟩ := (readLines_concat _ _ _ _).mp h
    obtain ⟨i1, i2⟩ := ih s1 h1
    obtain ⟨j1, j2, j3⟩ := (readLine_levels s1 l i1).2 s h2
    refine ⟨j1, ?_⟩
    by_cases hc : Contents l
    · rw [j3 hc]
      by_cases h0 : indentation l = 0
      · rw [if_pos h0]
        exact FirstLevel.reset i2 hc h0
      · rw [if_neg h0]
        cases hh : s1.1.levels.head? with
        | none =>
          rw [hh] at i2
          exact FirstLevel.first i2 hc h0
        | some i =>
          rw [hh] at i2
          exact FirstLevel.next i2 hc h0
    · rw [j2 hc]
      exact FirstLevel.skip i2 hc

theorem firstLevel_unique {a : List Str} {i j : Option Nat} (h1 : FirstLevel a i) (h2 : FirstLevel a j) : i = j := by
  induction a using List.reverseRecOn generalizing i j with
  | nil =>
    have key : ∀ {b i}, FirstLevel b i → b = [] → i = none := by
      intro b i h hb
      cases h with
      | start => rfl
      | _ => simp at hb
    rw [key h1 rfl, key h2 rfl]
  | append_singleton a l ih =>
    have key : ∀ {b i}, FirstLevel b i → b = a ++ [l] → ∃ k, FirstLevel a k ∧ (¬ Contents l → i = k) ∧
        (Contents l → i = if indentation l = 0 then none else some (k.getD (indentation l))) := by
      intro b i h hb
      cases h with
      | start => simp at hb
      | skip h hc =>
        obtain ⟨rfl, h'⟩ := List.append_inj' hb rfl
        injection h' with h'
        subst h'
        exact ⟨_, h, fun _ => rfl, fun x => absurd x hc⟩
      | reset h hc h0 =>
        obtain ⟨rfl, h'⟩ := List.append_inj' hb rfl
        injection h' with h'
        subst h'
        exact ⟨_, h, fun x => absurd hc x, fun _ => by rw [if_pos h0]⟩
      | first h hc h0 =>
        obtain ⟨rfl, h'⟩ := List.append_inj' hb rfl
        injection h' with h'
        subst h'
        exact ⟨_, h, fun x => absurd hc x, fun _ => by rw [if_neg h0]; rfl⟩
      | next h hc h0 =>
        obtain ⟨rfl, h'⟩ := List.append_inj' hb rfl
        injection h' with h'
        subst h'
        exact ⟨_, h, fun x => absurd hc x, fun _ => by rw [if_neg h0]; rfl⟩
    obtain ⟨k1, a1, a2, a3⟩ := key h1 rfl
    obtain ⟨k2, b1, b2, b3⟩ := key h2 rfl
    have := ih a1 b1
    subst this
    by_cases hc : Contents l
    · rw [a3 hc, b3 hc]
    · rw [a2 hc, b2 hc]

theorem readLines_undefined (s : Stack × Map) (ls : List Str) : readLines s ls = .error .undefined ↔
    ∃ a l b s1, ls = a ++ l :: b ∧ readLines s a = .ok s1 ∧ readLine s1 l = .error .undefined := by
  induction ls generalizing s with
  | nil =>
    constructor
    · intro h; cases h
    · rintro ⟨a, l, b, s1, h, _⟩
      simp at h
  | cons x ls ih =>
    unfold readLines
    constructor
    · intro h
      split at h
      · rename_i e he
        injection h with h
        exact ⟨[], x, ls, s, rfl, rfl, by rw [he, h]⟩
      · rename_i s2 h2
        obtain ⟨a, l, b, s1, e1, e2, e3⟩ := (ih s2).mp h
        refine ⟨x :: a, l, b, s1, by rw [e1]; rfl, ?_, e3⟩
        show (match readLine s x with | Except.error e => Except.error e | Except.ok s => readLines s a) = Except.ok s1
        rw [h2]
        exact e2
    · rintro ⟨a, l, b, s1, e1, e2, e3⟩
      cases a with
      | nil =>
        injection e1 with e1 _
        injection e2 with e2
        subst e1 e2
        rw [e3]
      | cons y a =>
        injection e1 with e1 e1'
        subst e1
        change (match readLine s x with | Except.error e => Except.error e | Except.ok s => readLines s a) = Except.ok s1 at e2
        split at e2
        · cases e2
        · rename_i s2 h2
          rw [h2]
          exact (ih s2).mpr ⟨a, l, b, s1, e1', e2, e3⟩

/-- **C44** Exactly these files make the reader look at the last element of an empty vector: after lines that are read without an
error comes a line with a colon whose indentation is positive but smaller than the first indentation since the last line that is not
indented. Every other text gives a dictionary or an error message. -/
theorem c44_undefined_iff (text : Str) : read text = .error .undefined ↔
    ∃ a l b s i, lines text = a ++ l :: b ∧ readLines (⟨[], []⟩, []) a = .ok s ∧ Contents l ∧ ':' ∈ stripComments l ∧
      FirstLevel a (some i) ∧ 0 < indentation l ∧ indentation l < i := by
  have hr : read text = .error .undefined ↔ readLines (⟨[], []⟩, []) (lines text) = .error .undefined := by
    unfold read
    cases readLines (⟨[], []⟩, []) (lines text) with
    | error e => simp
    | ok s => simp
  rw [hr, readLines_undefined]
  constructor
  · rintro ⟨a, l, b, s, e1, e2, e3⟩
    obtain ⟨f1, f2⟩ := first_level a s e2
    obtain ⟨h1, h2, h3, i, h4, h5⟩ := (readLine_levels s l f1).1.mp e3
    rw [h4] at f2
    exact ⟨a, l, b, s, i, e1, e2, h1, h2, f2, h3, h5⟩
  · rintro ⟨a, l, b, s, i, e1, e2, h1, h2, h3, h4, h5⟩
    obtain ⟨f1, f2⟩ := first_level a s e2
    exact ⟨a, l, b, s, e1, e2, (readLine_levels s l f1).1.mpr ⟨h1, h2, h4, i, firstLevel_unique f2 h3, h5⟩⟩

/-- **C44** Violated: a file with an indentation that drops below the first one of its block. -/
theorem c44_violated : ∃ text, read text = .error .undefined :=
  ⟨"a:\n  b:\n c: 1".toList, by decide +kernel⟩

/-- **C44** Proved part: a text in which no line with contents has a positive indentation smaller than the first one of its block is
read or rejected with an error message. Missing: the other texts, for which the claim is false (`c44_undefined_iff`). -/
theorem c44_defined_partial (text : Str)
    (h : ∀ a l b i, lines text = a ++ l :: b → Contents l → FirstLevel a (some i) → 0 < indentation l → i ≤ indentation l) :
    (∃ m, read text = .ok m) ∨ read text = .error .error := by
  cases hr : read text with
  | ok m => exact Or.inl ⟨m, rfl⟩
  | error e =>
    cases e with
    | error => exact Or.inr rfl
    | undefined =>
      exfalso
      obtain ⟨a, l, b, s, i, e1, _, h1, _, h3, h4, h5⟩ := (c44_undefined_iff text).mp hr
      have := h a l b i e1 h1 h3 h4
      omega

/-- a file without indented lines -/
example : ∀ a l b i, lines "a: 1\nb: 2".toList = a ++ l :: b → Contents l → FirstLevel a (some i) → 0 < indentation l →
    i ≤ indentation l := by
  intro a l b i h _ _ h0
  have hl : lines "a: 1\nb: 2".toList = ["a: 1".toList, "b: 2".toList] := by decide
  rw [hl] at h
  have hm : l ∈ ["a: 1".toList, "b: 2".toList] := by rw [h]; simp
  have h2 : ∀ l ∈ ["a: 1".toList, "b: 2".toList], indentation l = 0 := by decide
  have := h2 l hm
  omega

/-! ## C45 -/

/-- the text that marks a key without a value -/
def marker : Str := "default value".toList

/-- what holds after every history -/
def Holds (given : Str → Option Str) (d : Dictionary) : Prop := Sorted d.values ∧ Sorted d.used ∧
  ∀ k, find d.values k = given k ∨ (given k = none ∧ find d.values k = some marker)

theorem getStringOr_eq (key default : Str) (d : Dictionary) : getStringOr key default d =
    if find d.values key = none ∨ find d.values key = some marker
    then (default, ⟨assign key marker d.values, assign key default d.used⟩)
    else ((find d.values key).getD [], ⟨d.values, assign key ((find d.values key).getD []) d.used⟩) := by
  unfold getStringOr
  cases find d.values key with
  | none => rw [if_pos (Or.inl rfl)]; rfl
  | some v =>
    dsimp only
    by_cases h : v = "default value".toList
    · rw [if_pos h, if_pos (Or.inr (by rw [h]; rfl))]
      rfl
    · rw [if_neg h, if_neg]
      · rfl
      · rintro (h' | h')
        · cases h'
        · injection h' with h'
          exact h h'

theorem holds_used {given : Str → Option Str} {d : Dictionary} (key v : Str) (h : Holds given d) :
    Holds given ⟨d.values, assign key v d.used⟩ := ⟨h.1, assign_sorted _ _ _ h.2.1, h.2.2⟩

theorem holds_getStringOr {given : Str → Option Str} {d : Dictionary} (key default : Str) (h : Holds given d) :
    Holds given (getStringOr key default d).2 := by
  rw [getStringOr_eq]
  split
  · rename_i hc
    refine ⟨assign_sorted _ _ _ h.1, assign_sorted _ _ _ h.2.1, ?_⟩
    intro k
    show find (assign key marker d.values) k = given k ∨ (given k = none ∧ find (assign key marker d.values) k = some marker)
    rw [find_assign _ _ _ _ h.1]
    by_cases hk : key = k
    · subst hk
      rw [if_pos rfl]
      rcases h.2.2 key with h1 | ⟨h1, h2⟩
      · rcases hc with hc | hc
        · right
          exact ⟨by rw [← h1, hc], rfl⟩
        · left
          rw [← h1, hc]
      · exact Or.inr ⟨h1, rfl⟩
    · rw [if_neg hk]
      exact h.2.2 k
  · exact holds_used _ _ h

theorem holds_history {given : Str → Option Str} {d : Dictionary} (h : History given d) : Holds given d := by
  induction h with
  | file hm => exact ⟨hm, List.Pairwise.nil, fun k => Or.inl rfl⟩
  | @add given d key value _ ih =>
    refine ⟨assign_sorted _ _ _ ih.1, assign_sorted _ _ _ ih.2.1, ?_⟩
    intro k
    show find (assign key value d.values) k = (if k = key then some value else given k) ∨ _
    rw [find_assign _ _ _ _ ih.1]
    by_cases hk : key = k
    · left
      rw [if_pos hk, if_pos hk.symm]
    · dsimp only
      rw [if_neg hk, if_neg (Ne.symm hk)]
      rcases ih.2.2 k with h1 | h1
      · exact Or.inl h1
      · right
        refine ⟨h1.1, ?_⟩
        show find (assign key value d.values) k = _
        rw [find_assign _ _ _ _ ih.1, if_neg hk]
        exact h1.2
  | string key _ hr ih =>
    unfold getString at hr
    split at hr
    · cases hr
    · injection hr with hr
      injection hr with _ hr
      rw [← hr]
      exact holds_used _ _ ih
  | stringOr key default _ ih => exact holds_getStringOr key default ih
  | value t key _ hr ih =>
    unfold getValue at hr
    split at hr
    · cases hr
    · rename_i s d1 h1
      split at hr
      · cases hr
      · injection hr with hr
        injection hr with _ hr
        rw [← hr]
        unfold getString at h1
        split at h1
        · cases h1
        · injection h1 with h1
          injection h1 with _ h1
          rw [← h1]
          exact holds_used _ _ (holds_used _ _ ih)
  | valueOr t key default _ hr ih =>
    unfold getValueOr at hr
    dsimp only at hr
    split at hr
    · cases hr
    · injection hr with hr
      injection hr with _ hr
      rw [← hr]
      exact holds_used _ _ (holds_getStringOr key [] ih)
  | physicalOr t key default _ hr ih =>
    unfold getPhysicalOr at hr
    dsimp only at hr
    split at hr
    · cases hr
    · injection hr with hr
      injection hr with _ hr
      rw [← hr]
      exact holds_used _ _ (holds_getStringOr key default ih)

/-- **C45** Text with a default, after any history: the given value, or the default if there is none. -/
theorem c45_string_partial {given : Str → Option Str} {d : Dictionary} (h : History given d) (key default : Str)
    (hg : given key ≠ some "default value".toList) : (getStringOr key default d).1 = (given key).getD default := by
  obtain ⟨_, _, h3⟩ := holds_history h
  rw [getStringOr_eq]
  rcases h3 key with h1 | ⟨h1, h2⟩
  · cases hk : given key with
    | none =>
      rw [if_pos (Or.inl (by rw [h1, hk]))]
      rfl
    | some v =>
      rw [if_neg]
      · rw [h1, hk]
        rfl
      · rw [h1, hk]
        rintro (h' | h')
        · cases h'
        · exact hg (by rw [hk, h']; rfl)
  · rw [if_pos (Or.inr h2), h1]
    rfl

/-- **C45** A value of any type with a default, after any history: the converted given value, or the default if there is none. -/
theorem c45_value_partial {given : Str → Option Str} {d : Dictionary} (h : History given d) {α : Type} (t : DataType α) (key : Str)
    (default : α) (hg : given key ≠ some "default value".toList) (he : given key ≠ some []) :
    (match getValueOr t key default d with
      | .ok (x, _) => (match given key with
        | none => x = default
        | some v => t.convert v = .ok x)
      | .error e => ∃ v, given key = some v ∧ t.convert v = .error e) := by
  have hs := c45_string_partial h key [] hg
  unfold getValueOr
  dsimp only
  rw [hs]
  cases hk : given key with
  | none => rfl
  | some v =>
    rw [Option.getD_some, if_neg (fun e => he (by rw [hk, e]))]
    cases hc : t.convert v with
    | error e => exact ⟨v, rfl, hc⟩
    | ok x => exact hc

/-- **C45** A physical value with a default, after any history. -/
theorem c45_physical_partial {given : Str → Option Str} {d : Dictionary} (h : History given d) {α : Type} (t : DataType α)
    (key default : Str) (hg : given key ≠ some "default value".toList) :
    (match getPhysicalOr t key default d with
      | .ok (x, _) => t.convert ((given key).getD default) = .ok x
      | .error e => t.convert ((given key).getD default) = .error e) := by
  have hs := c45_string_partial h key default hg
  unfold getPhysicalOr
  dsimp only
  rw [hs]
  cases hc : t.convert ((given key).getD default) with
  | error e => rfl
  | ok x => rfl

/-- **C45** Without a default a given value is returned, after any history. -/
theorem c45_present {given : Str → Option Str} {d : Dictionary} (h : History given d) (key v : Str) (hg : given key = some v) :
    ∃ d', getString key d = .ok (v, d') ∧ find d'.used key = some v := by
  obtain ⟨_, h2, h3⟩ := holds_history h
  have hv : find d.values key = some v := by
    rcases h3 key with h1 | ⟨h1, _⟩
    · rw [h1, hg]
    · rw [hg] at h1
      cases h1
  unfold getString
  rw [hv]
  exact ⟨_, rfl, by rw [find_assign _ _ _ _ h2, if_pos rfl]⟩

/-- **C45** The same for the other types: the converted value, or the error of the conversion. -/
theorem c45_present_value {given : Str → Option Str} {d : Dictionary} (h : History given d) {α : Type} (t : DataType α) (key v : Str)
    (hg : given key = some v) :
    (match getValue t key d with
      | .ok (x, d') => t.convert v = .ok x ∧ find d'.used key = some (t.toString x)
      | .error e => t.convert v = .error e) := by
  obtain ⟨d', h1, _⟩ := c45_present h key v hg
  have hd : History given d' := History.string key h h1
  unfold getValue
  rw [h1]
  dsimp only
  cases hc : t.convert v with
  | error e => rfl
  | ok x => exact ⟨rfl, by rw [find_assign _ _ _ _ (holds_history hd).2.1, if_pos rfl]⟩

/-- **C45** Without a default, a key that was neither given nor asked for with a default is an error. -/
theorem c45_absent (m : Map) (key : Str) (h : find m key = none) : getString key ⟨m, []⟩ = .error .error := by
  unfold getString
  rw [h]

/-- **C45** A query with a default leaves the other keys as they are, in both dictionaries, and records the used value. -/
theorem c45_frame {given : Str → Option Str} {d : Dictionary} (h : History given d) (key default : Str) :
    find (getStringOr key default d).2.used key = some (getStringOr key default d).1 ∧
    ∀ k, k ≠ key → find (getStringOr key default d).2.values k = find d.values k ∧
      find (getStringOr key default d).2.used k = find d.used k := by
  obtain ⟨h1, h2, _⟩ := holds_history h
  rw [getStringOr_eq]
  split
  · refine ⟨by rw [find_assign _ _ _ _ h2, if_pos rfl], ?_⟩
    intro k hk
    exact ⟨by rw [find_assign _ _ _ _ h1, if_neg (Ne.symm hk)], by rw [find_assign _ _ _ _ h2, if_neg (Ne.symm hk)]⟩
  · refine ⟨by rw [find_assign _ _ _ _ h2, if_pos rfl], ?_⟩
    intro k hk
    exact ⟨rfl, by rw [find_assign _ _ _ _ h2, if_neg (Ne.symm hk)]⟩

/-- **C45** The same for the other types. -/
theorem c45_frame_value {given : Str → Option Str} {d : Dictionary} (h : History given d) {α : Type} (t : DataType α) (key : Str)
    (default : α) (x : α) (d' : Dictionary) (hr : getValueOr t key default d = .ok (x, d')) :
    find d'.used key = some (t.toString x) ∧
    ∀ k, k ≠ key → find d'.values k = find d.values k ∧ find d'.used k = find d.used k := by
  have hf := (c45_frame h key []).2
  have hh := (holds_history (History.stringOr key [] h)).2.1
  unfold getValueOr at hr
  dsimp only at hr
  split at hr
  · cases hr
  · injection hr with hr
    injection hr with e1 e2
    rw [← e2, ← e1]
    refine ⟨by rw [find_assign _ _ _ _ hh, if_pos rfl], ?_⟩
    intro k hk
    refine ⟨(hf k hk).1, ?_⟩
    show find (assign key _ _) k = _
    rw [find_assign _ _ _ _ hh, if_neg (Ne.symm hk)]
    exact (hf k hk).2

/-- **C45** The same for physical values. -/
theorem c45_frame_physical {given : Str → Option Str} {d : Dictionary} (h : History given d) {α : Type} (t : DataType α)
    (key default : Str) (x : α) (d' : Dictionary) (hr : getPhysicalOr t key default d = .ok (x, d')) :
    find d'.used key = some (t.toString x) ∧
    ∀ k, k ≠ key → find d'.values k = find d.values k ∧ find d'.used k = find d.used k := by
  have hf := (c45_frame h key default).2
  have hh := (holds_history (History.stringOr key default h)).2.1
  unfold getPhysicalOr at hr
  dsimp only at hr
  split at hr
  · cases hr
  · injection hr with hr
    injection hr with e1 e2
    rw [← e2, ← e1]
    refine ⟨by rw [find_assign _ _ _ _ hh, if_pos rfl], ?_⟩
    intro k hk
    refine ⟨(hf k hk).1, ?_⟩
    show find (assign key _ _) k = _
    rw [find_assign _ _ _ _ hh, if_neg (Ne.symm hk)]
    exact (hf k hk).2

/-- **C45** A value that is set replaces the old one, and only that. -/
theorem c45_add {given : Str → Option Str} {d : Dictionary} (h : History given d) (key value : Str) :
    find (addValue key value d).values key = some value ∧ find (addValue key value d).used key = some value ∧
    ∀ k, k ≠ key → find (addValue key value d).values k = find d.values k ∧ find (addValue key value d).used k = find d.used k := by
  obtain ⟨h1, h2, _⟩ := holds_history h
  unfold addValue
  refine ⟨by rw [find_assign _ _ _ _ h1, if_pos rfl], by rw [find_assign _ _ _ _ h2, if_pos rfl], ?_⟩
  intro k hk
  exact ⟨by rw [find_assign _ _ _ _ h1, if_neg (Ne.symm hk)], by rw [find_assign _ _ _ _ h2, if_neg (Ne.symm hk)]⟩

/-- **C45** Violated: a given value is not returned if it is the marker… -/
theorem c45_marker_violated : ∃ d, History (find [("a".toList, "default value".toList)]) d ∧
    find [("a".toList, "default value".toList)] "a".toList = some "default value".toList ∧
    (getStringOr "a".toList "b".toList d).1 = "b".toList :=
  ⟨_, History.file (List.pairwise_singleton _ _), by decide, by decide⟩

/-- …after a query with a default the key exists, and a query without a default returns the marker instead of an error. -/
theorem c45_phantom_violated : ∃ d, History (find []) d ∧ hasValue "a".toList d = true ∧
    ∃ d', getString "a".toList d = .ok ("default value".toList, d') :=
  ⟨_, History.stringOr "a".toList "b".toList (History.file List.Pairwise.nil), by decide, _, rfl⟩

/-- a history with two queries -/
example : (getStringOr "a".toList "x".toList (getStringOr "a".toList "y".toList ⟨[("b".toList, "1".toList)], []⟩).2).1 = "x".toList := by
  decide

end Verif.Yaml
