import Verif.Proofs.Yaml

/-!
# Printing and reading back: proofs
-/
namespace Verif.Yaml

open Spec
open Verif.Text (Failure cut)

/-! ## what is printed -/

/-- the lines with the names of groups, from an indentation on -/
def groupLines : Nat → List Str → List Str
  | _, [] => []
  | n, g :: gs => (spaces n ++ (g ++ [':'])) :: groupLines (n + 2) gs

/-- the line with a name and a text -/
def entryLine (n : Nat) (name text : Str) : Str := spaces n ++ (name ++ ':' :: ' ' :: text)

theorem unlines_append (a b : List Str) : unlines (a ++ b) = unlines a ++ unlines b := by
  unfold unlines
  rw [List.flatMap_append]

theorem unlines_cons (a : Str) (b : List Str) : unlines (a :: b) = a ++ '\n' :: unlines b := by
  unfold unlines
  rw [List.flatMap_cons, List.append_assoc]
  rfl

theorem spaces_add (a b : Nat) : spaces (a + b) = spaces a ++ spaces b := by
  unfold spaces
  rw [List.replicate_add]

theorem printGroups_spec (gs : List Str) : ∀ (groups : List Str) (n : Nat) (out : Str),
    printGroups gs groups (spaces n) out = (groups ++ gs, spaces (n + 2 * gs.length), out ++ unlines (groupLines n gs)) := by
  induction gs with
  | nil =>
    intro groups n out
    simp [printGroups, groupLines, unlines]
  | cons g gs ih =>
    intro groups n out
    unfold printGroups
    rw [show spaces n ++ "  ".toList = spaces (n + 2) by rw [spaces_add]; rfl, ih, groupLines, unlines_cons]
    simp only [List.append_assoc, List.length_cons, Prod.mk.injEq]
    refine ⟨rfl, ?_, rfl⟩
    congr 1
    omega

theorem indent_text (i : Nat) : (List.replicate i "  ".toList).flatten = spaces (2 * i) := by
  induction i with
  | zero => rfl
  | succ i ih =>
    rw [List.replicate_succ, List.flatten_cons, ih, show 2 * (i + 1) = 2 + 2 * i by omega, spaces_add]
    rfl

theorem common_spec (G K : List Str) : common G K ≤ G.length ∧ common G K ≤ K.length ∧ G.take (common G K) = K.take (common G K) ∧
    (common G K < G.length → common G K < K.length → G.take (common G K + 1) ≠ K.take (common G K + 1)) := by
  induction G generalizing K with
  | nil => simp [common]
  | cons a G ih =>
    cases K with
    | nil => simp [common]
    | cons b K =>
      unfold common
      by_cases hab : a = b
      · rw [if_pos hab]
        obtain ⟨h1, h2, h3, h4⟩ := ih K
        refine ⟨by simpa using h1, by simpa using h2, ?_, ?_⟩
        · rw [List.take_succ_cons, List.take_succ_cons, h3, hab]
        · intro l1 l2 e
          rw [List.take_succ_cons, List.take_succ_cons] at e
          injection e with e1 e2
          exact h4 (by simpa using l1) (by simpa using l2) e2
      · rw [if_neg hab]
        refine ⟨Nat.zero_le _, Nat.zero_le _, rfl, ?_⟩
        intro _ _ e
        simp at e
        exact hab e

theorem popHalf_spec (G : List Str) : ∀ j, j ≤ G.length → ∃ m, j ≤ m ∧ m ≤ G.length ∧ popHalf j G = G.take m := by
  generalize hL : G.length = L
  induction L using Nat.strong_induction_on generalizing G with
  | _ L ih =>
    intro j hj
    rw [popHalf]
    by_cases h : j < G.length
    · rw [if_pos h]
      by_cases h2 : j + 1 ≤ G.length - 1
      · obtain ⟨m, h3, h4, h5⟩ := ih (G.length - 1) (by omega) G.dropLast (by rw [List.length_dropLast]) (j + 1) h2
        refine ⟨m, by omega, by omega, ?_⟩
        rw [h5, List.dropLast_eq_take, List.take_take]
        congr 1
        omega
      · refine ⟨j, le_refl _, hj, ?_⟩
        rw [popHalf, if_neg (by rw [List.length_dropLast]; omega), List.dropLast_eq_take]
        congr 1
        omega
    · rw [if_neg h]
      exact ⟨G.length, by omega, by omega, by rw [List.take_length]⟩

theorem popTo_spec (n : Nat) (G : List Str) : popTo n G = G.take n := by
  generalize hL : G.length = L
  induction L using Nat.strong_induction_on generalizing G with
  | _ L ih =>
    rw [popTo]
    by_cases h : n < G.length
    · rw [if_pos h, ih (G.length - 1) (by omega) G.dropLast (by rw [List.length_dropLast]), List.dropLast_eq_take, List.take_take]
      congr 1
      omega
    · rw [if_neg h, List.take_of_length_le (by omega)]

theorem popMany_spec (k : Nat) (G : List Str) : popMany k G = G.take (G.length - k) := by
  induction k generalizing G with
  | zero => rw [popMany, Nat.sub_zero, List.take_length]
  | succ k ih =>
    rw [popMany, ih, List.dropLast_eq_take, List.take_take, List.length_take]
    congr 1
    omega

/-- what an entry adds to the output, and the printed groups after it -/
theorem printEntry_spec (text : Str → Str → Str) (G : List Str) (out : Str) (e : Str × Str) (K : List Str) (name : Str)
    (he : splitKey e.1 [] = (K, name)) : ∃ i m, i ≤ m ∧ m ≤ G.length ∧ i ≤ K.length ∧ G.take i = K.take i ∧
      (i < m → G.take (i + 1) ≠ K.take (i + 1)) ∧
      printEntry text (G, out) e = (G.take m ++ K.drop i,
        out ++ unlines (groupLines (2 * i) (K.drop i) ++ [entryLine (2 * K.length) name (text e.1 e.2)])) := by
  have hfin : ∀ (i : Nat) (R : List Str), i ≤ K.length →
      ((printGroups (K.drop i) R (spaces (2 * i)) out).1,
        (printGroups (K.drop i) R (spaces (2 * i)) out).2.2 ++
          ((printGroups (K.drop i) R (spaces (2 * i)) out).2.1 ++ name ++ ": ".toList ++ text e.1 e.2 ++ "\n".toList)) =
      (R ++ K.drop i, out ++ unlines (groupLines (2 * i) (K.drop i) ++ [entryLine (2 * K.length) name (text e.1 e.2)])) := by
    intro i R hi
    rw [printGroups_spec]
    dsimp only
    rw [unlines_append, unlines_cons, ← List.append_assoc out, Prod.mk.injEq]
    refine ⟨rfl, ?_⟩
    congr 1
    have : 2 * i + 2 * (K.drop i).length = 2 * K.length := by
      rw [List.length_drop]
      omega
    rw [this]
    unfold entryLine
    simp only [List.append_assoc]
    rfl
  unfold printEntry
  rw [he]
  dsimp only
  by_cases hl : K.length > G.length
  · rw [if_pos hl]
    obtain ⟨h1, h2, h3, h4⟩ := common_spec G K
    obtain ⟨m, m1, m2, m3⟩ := popHalf_spec G (common G K) h1
    refine ⟨common G K, m, m1, m2, h2, h3, ?_, ?_⟩
    · intro hm
      exact h4 (by omega) (by omega)
    · rw [m3, indent_text]
      exact hfin _ _ h2
  · rw [if_neg hl, popTo_spec]
    obtain ⟨h1, h2, h3, _⟩ := common_spec (G.take K.length) K
    have hlen : (G.take K.length).length = K.length := by rw [List.length_take]; omega
    have h3' : G.take (common (G.take K.length) K) = K.take (common (G.take K.length) K) := by
      rw [← h3, List.take_take, Nat.min_eq_left h2]
    refine ⟨common (G.take K.length) K, common (G.take K.length) K, le_refl _, by omega, h2, h3', fun h => absurd h (by omega), ?_⟩
    rw [popMany_spec, indent_text, hlen]
    have : K.length - (K.length - common (G.take K.length) K) = common (G.take K.length) K := by omega
    rw [this, hfin _ _ h2, List.take_take, Nat.min_eq_left h2]

/-! ## what is read -/

theorem groupLine_read (s : Stack × Map) (n : Nat) (g : Str) (hg : Clean g) (hc : ':' ∉ g) (stack : Stack)
    (hi : indent n s.1 = .ok stack) : readLine s (spaces n ++ (g ++ [':'])) = .ok (⟨stack.groups ++ [g], stack.levels⟩, s.2) := by
  rw [readLine_spec s n g [] [] hg hc rfl stack hi, if_pos rfl]

theorem entryLine_read (s : Stack × Map) (n : Nat) (name text v : Str) (hg : Clean name) (hc : ':' ∉ name) (stack : Stack)
    (hi : indent n s.1 = .ok stack) (hv : stripBlanks (stripComments (' ' :: text)) = v) (hne : v ≠ [])
    (h0 : n = 0 → stack.groups = []) :
    readLine s (entryLine n name text) = .ok (stack, assign (joined stack.groups ++ name) v s.2) := by
  unfold entryLine
  rw [readLine_spec s n name (' ' :: text) v hg hc hv stack hi, if_neg hne, fullKey_eq]
  by_cases hn : n > 0
  · rw [if_pos hn]
  · rw [if_neg hn, h0 (by omega)]
    rfl

/-- a chain of groups after the name of a group -/
theorem read_open (name text v : Str) (hname : Clean name) (hc : ':' ∉ name)
    (hv : stripBlanks (stripComments (' ' :: text)) = v) (hne : v ≠ []) (m : Map) (gs : List Str) :
    ∀ (Q : List Str), Q ≠ [] → (∀ g ∈ gs, ':' ∉ g ∧ Clean g) →
    readLines (⟨Q, lv (Q.length - 1)⟩, m) (groupLines (2 * Q.length) gs ++ [entryLine (2 * (Q.length + gs.length)) name text]) =
      .ok (⟨Q ++ gs, lv (Q ++ gs).length⟩, assign (joined (Q ++ gs) ++ name) v m) := by
  induction gs with
  | nil =>
    intro Q hQ _
    have hlen := List.length_pos_of_ne_nil hQ
    rw [groupLines, List.nil_append, readLines, List.length_nil, Nat.add_zero, List.append_nil]
    rw [entryLine_read _ _ name text v hname hc _ (indent_open Q hQ) hv hne (by intro h; omega)]
    rfl
  | cons g gs ih =>
    intro Q hQ hgs
    rw [groupLines, List.cons_append, readLines, groupLine_read _ _ g (hgs g (by simp)).2 (hgs g (by simp)).1 _ (indent_open Q hQ)]
    dsimp only
    have := ih (Q ++ [g]) (by simp) (fun x hx => hgs x (by simp [hx]))
    have hl : (Q ++ [g]).length = Q.length + 1 := by simp
    rw [hl] at this
    have e1 : Q.length + 1 - 1 = Q.length := by omega
    have e2 : 2 * (Q.length + 1) = 2 * Q.length + 2 := by omega
    have e3 : Q.length + 1 + gs.length = Q.length + (g :: gs).length := by simp; omega
    rw [e1, e2, e3] at this
    rw [this]
    simp

/-- an entry with its new groups after another entry -/
theorem read_entry (name text v : Str) (hname : Clean name) (hc : ':' ∉ name)
    (hv : stripBlanks (stripComments (' ' :: text)) = v) (hne : v ≠ []) (m : Map) (P K : List Str) (i : Nat) (hiP : i ≤ P.length)
    (hiK : i ≤ K.length) (hPK : P.take i = K.take i) (hK : ∀ g ∈ K, ':' ∉ g ∧ Clean g) :
    readLines (⟨P, lv P.length⟩, m) (groupLines (2 * i) (K.drop i) ++ [entryLine (2 * K.length) name text]) =
      .ok (⟨K, lv K.length⟩, assign (joined K ++ name) v m) := by
  by_cases h : i = K.length
  · have hd : K.drop i = [] := by rw [h, List.drop_length]
    have ht : K.take i = K := by rw [h, List.take_length]
    rw [hd, groupLines, List.nil_append, readLines, ← h]
    have hi := indent_at P i hiP
    rw [hPK, ht] at hi
    rw [entryLine_read _ _ name text v hname hc _ hi hv hne (by
      intro h0
      exact List.length_eq_zero_iff.mp (by rw [← h]; omega))]
    rfl
  · have hlt : i < K.length := by omega
    have hg := hK K[i] (List.getElem_mem hlt)
    rw [List.drop_eq_getElem_cons hlt, groupLines, List.cons_append, readLines]
    have hi := indent_at P i hiP
    rw [hPK] at hi
    rw [groupLine_read _ _ K[i] hg.2 hg.1 _ hi]
    dsimp only
    have hQ : K.take i ++ [K[i]] = K.take (i + 1) := by simp
    have hQl : (K.take (i + 1)).length = i + 1 := by rw [List.length_take]; omega
    rw [hQ]
    have := read_open name text v hname hc hv hne m (K.drop (i + 1)) (K.take (i + 1)) (by
      intro e
      rw [e] at hQl
      simp at hQl) (fun g hg => hK g (List.mem_of_mem_drop hg))
    rw [hQl, List.take_append_drop, List.length_drop] at this
    rw [show i + 1 - 1 = i by omega, show 2 * (i + 1) = 2 * i + 2 by omega, show i + 1 + (K.length - (i + 1)) = K.length by omega] at this
    exact this

/-! ## all entries -/

theorem groupLines_newline (gs : List Str) (h : ∀ g ∈ gs, '\n' ∉ g) : ∀ n, ∀ l ∈ groupLines n gs, '\n' ∉ l := by
  induction gs with
  | nil => intro n l hl; cases hl
  | cons g gs ih =>
    intro n l hl
    rcases List.mem_cons.mp hl with rfl | hl
    · intro hm
      rcases List.mem_append.mp hm with hm | hm
      · exact absurd (List.eq_of_mem_replicate hm) (by decide)
      · rcases List.mem_append.mp hm with hm | hm
        · exact h g (by simp) hm
        · exact absurd (List.mem_singleton.mp hm) (by decide)
    · exact ih (fun g hg => h g (by simp [hg])) _ l hl

theorem entryLine_newline (n : Nat) (name text : Str) (h1 : '\n' ∉ name) (h2 : '\n' ∉ text) : '\n' ∉ entryLine n name text := by
  unfold entryLine
  intro hm
  rcases List.mem_append.mp hm with hm | hm
  · exact absurd (List.eq_of_mem_replicate hm) (by decide)
  · rcases List.mem_append.mp hm with hm | hm
    · exact h1 hm
    · rcases List.mem_cons.mp hm with hm | hm
      · exact absurd hm (by decide)
      · rcases List.mem_cons.mp hm with hm | hm
        · exact absurd hm (by decide)
        · exact h2 hm

/-- what is needed of the printed text of an entry: `f e` is read from it -/
def Readable (text : Str → Str → Str) (f : Str × Str → Str) (e : Str × Str) : Prop :=
  (∃ groups name, Key e.1 groups name) ∧ stripBlanks (stripComments (' ' :: text e.1 e.2)) = f e ∧ f e ≠ [] ∧ '\n' ∉ text e.1 e.2

theorem key_split {k : Str} {K : List Str} {name : Str} (h : Key k K name) : k = joined K ++ name ∧ splitKey k [] = (K, name) := by
  have e : k = joined K ++ name := by rw [h.1, intercalate_eq]
  refine ⟨e, ?_⟩
  rw [e, splitKey_spec K name (fun p hp => (h.2 p hp).1) [], List.nil_append]

/-- the printed groups do not agree with a later key in more groups than the last one read -/
def Inv (G P : List Str) (rest : Map) : Prop := ∀ e ∈ rest, ∀ K name, Key e.1 K name → ∀ n, n ≤ G.length → n ≤ K.length →
  G.take n = K.take n → n ≤ P.length ∧ P.take n = K.take n

theorem print_read (text : Str → Str → Str) (f : Str × Str → Str) (rest : Map) : ∀ (G P : List Str) (m0 : Map) (ls0 : List Str),
    (∀ e ∈ rest, Readable text f e) → Sorted rest → (∀ a ∈ m0, ∀ b ∈ rest, a.1 < b.1) →
    (∀ l ∈ ls0, '\n' ∉ l) → readLines (⟨[], []⟩, []) ls0 = .ok (⟨P, lv P.length⟩, m0) → Inv G P rest →
    (P = [] ∨ ∃ n0, (∀ p ∈ P ++ [n0], ':' ∉ p) ∧ ∀ b ∈ rest, joined P ++ n0 < b.1) →
    ∃ ls s, (rest.foldl (printEntry text) (G, unlines ls0)).2 = unlines ls ∧ (∀ l ∈ ls, '\n' ∉ l) ∧
      readLines (⟨[], []⟩, []) ls = .ok (s, m0 ++ rest.map fun e => (e.1, f e)) := by
  induction rest with
  | nil =>
    intro G P m0 ls0 _ _ _ hn hr _ _
    exact ⟨ls0, _, rfl, hn, by rw [List.map_nil, List.append_nil]; exact hr⟩
  | cons e rest ih =>
    intro G P m0 ls0 hread hsort hm0 hn hr hinv hP
    obtain ⟨⟨K, name, hkey⟩, hv, hne, htn⟩ := hread e List.mem_cons_self
    obtain ⟨hk, hsplit⟩ := key_split hkey
    obtain ⟨i, m, h1, h2, h3, h4, h5, h6⟩ := printEntry_spec text G (unlines ls0) e K name hsplit
    obtain ⟨hiP, hPK⟩ := hinv e List.mem_cons_self K name hkey i (by omega) h3 h4
    have hKc : ∀ g ∈ K, ':' ∉ g ∧ Clean g := fun g hg => hkey.2 g (by simp [hg])
    have hnc := hkey.2 name (by simp)
    have hre := read_entry name (text e.1 e.2) (f e) hnc.2 hnc.1 hv hne m0 P K i hiP h3 hPK hKc
    rw [← hk, assign_append e.1 (f e) m0 (fun a ha => hm0 a ha e List.mem_cons_self)] at hre
    rw [sorted_cons] at hsort
    rw [List.foldl_cons, h6, ← unlines_append]
    have := ih (G.take m ++ K.drop i) K (m0 ++ [(e.1, f e)])
      (ls0 ++ (groupLines (2 * i) (K.drop i) ++ [entryLine (2 * K.length) name (text e.1 e.2)]))
      (fun x hx => hread x (List.mem_cons_of_mem _ hx)) hsort.2 ?_ ?_ ?_ ?_ ?_
    · obtain ⟨ls, s, r1, r2, r3⟩ := this
      refine ⟨ls, s, r1, r2, ?_⟩
      rw [r3, List.map_cons, List.append_assoc]
      rfl
    · intro a ha b hb
      rcases List.mem_append.mp ha with ha | ha
      · exact hm0 a ha b (List.mem_cons_of_mem _ hb)
      · rw [List.mem_singleton.mp ha]
        exact hsort.1 b hb
    · intro l hl
      rcases List.mem_append.mp hl with hl | hl
      · exact hn l hl
      · rcases List.mem_append.mp hl with hl | hl
        · exact groupLines_newline _ (fun g hg => (hKc g (List.mem_of_mem_drop hg)).2.2.1) _ l hl
        · rw [List.mem_singleton.mp hl]
          exact entryLine_newline _ _ _ hnc.2.2.1 htn
    · rw [readLines_append _ _ _ _ hr, hre]
    · -- the invariant
      intro b hb K' name' hkey' n hn1 hn2 hn3
      have htake : ∀ n, n ≤ i → (G.take m ++ K.drop i).take n = K.take n := by
        intro n hni
        rw [List.take_append_of_le_length (by rw [List.length_take]; omega), List.take_take, Nat.min_eq_left (by omega)]
        have := congrArg (List.take n) h4
        rw [List.take_take, List.take_take, Nat.min_eq_left hni] at this
        exact this
      by_cases hni : n ≤ i
      · rw [htake n hni] at hn3
        exact ⟨by omega, hn3⟩
      · by_cases him : m = i
        · rw [him, h4, List.take_append_drop] at hn3 hn1
          exact ⟨hn1, hn3⟩
        · exfalso
          have himlt : i < m := by omega
          have hn4 : G.take (i + 1) = K'.take (i + 1) := by
            have := congrArg (List.take (i + 1)) hn3
            rw [List.take_take, List.take_take, Nat.min_eq_left (by omega : i + 1 ≤ n),
              List.take_append_of_le_length (by rw [List.length_take]; omega), List.take_take, Nat.min_eq_left (by omega)] at this
            exact this
          obtain ⟨q1, q2⟩ := hinv b (List.mem_cons_of_mem _ hb) K' name' hkey' (i + 1) (by omega) (by omega) hn4
          rcases hP with hP | ⟨n0, hP1, hP2⟩
          · rw [hP] at q1
            simp at q1
          · have hb1 := hP2 e List.mem_cons_self
            have hb2 := hsort.1 b hb
            obtain ⟨hk', _⟩ := key_split hkey'
            have p1 : joined (P.take (i + 1)) <+: joined P ++ n0 := by
              conv_rhs => rw [← List.take_append_drop (i + 1) P, joined_append, List.append_assoc]
              exact List.prefix_append _ _
            have p2 : joined (P.take (i + 1)) <+: b.1 := by
              rw [q2, hk']
              conv_rhs => rw [← List.take_append_drop (i + 1) K', joined_append, List.append_assoc]
              exact List.prefix_append _ _
            have p3 := prefix_between _ _ _ _ p1 p2 hb1 hb2
            rw [hk] at p3
            have p4 := joined_prefix (P.take (i + 1)) K name
              (fun p hp => hP1 p (List.mem_append_left _ (List.mem_of_mem_take hp))) (fun p hp => (hkey.2 p hp).1) p3
            have p5 := List.prefix_iff_eq_take.mp p4
            rw [List.length_take, Nat.min_eq_left q1, q2, ← hn4] at p5
            exact h5 himlt p5
    · right
      refine ⟨name, fun p hp => (hkey.2 p hp).1, ?_⟩
      intro b hb
      rw [← hk]
      exact hsort.1 b hb

/-- a printed dictionary can be read -/
theorem read_of_print (text : Str → Str → Str) (f : Str × Str → Str) (m : Map) (h : ∀ e ∈ m, Readable text f e) (hs : Sorted m) :
    read (m.foldl (printEntry text) ([], [])).2 = .ok (m.map fun e => (e.1, f e)) := by
  obtain ⟨ls, s, h1, h2, h3⟩ := print_read text f m [] [] [] [] h hs (by intro a ha; cases ha) (by intro l hl; cases hl) rfl
    (by
      intro e _ K name _ n hn _ _
      have : n = 0 := by simpa using hn
      subst this
      exact ⟨le_refl _, rfl⟩) (Or.inl rfl)
  have h1' : (m.foldl (printEntry text) ([], [])).2 = unlines ls := h1
  unfold read
  rw [h1', lines_unlines ls h2, h3, List.nil_append]

end Verif.Yaml
