import Verif.Proofs.GraphProper

/-!
# The task graph: order of the accesses to data
-/
namespace Verif.Graph

variable {P : Params} {a b w : Tk} {c c' : Cell}

/-! ## No cycles -/

/-- a number that grows along every dependency -/
def rank (P : Params) : Tk → Nat
  | .nbased | .gauss _ | .grid _ => 0
  | .swig _ | .wigner _ | .geom _ _ => 1
  | .avg _ _ => 2 + ((cells P).length + 1) * (2 * P.nq + 5)
  | t => 2 + (((cellOf t).elim 0 fun c => pos P c / P.nt * (2 * P.nq + 5)) + stg P t)

theorem lk_rank (hn : 0 < P.nt) (hg : cells P ≠ [] → 0 < P.maxOrder → 0 < P.nq) (h : Lk P a b) :
    rank P a < rank P b := by
  have cross : ∀ {c c' : Cell}, pos P c = pos P c' + P.nt →
      pos P c / P.nt * (2 * P.nq + 5) = pos P c' / P.nt * (2 * P.nq + 5) + (2 * P.nq + 5) := by
    intro c c' h
    rw [h, Nat.add_div_right _ hn, Nat.succ_mul]
  cases h <;> simp only [rank, cellOf, Option.elim, stg] <;> try omega
  case unlI c c' ig h1 h2 h3 h4 => have := cross h3; omega
  case unlM c c' h1 h2 h3 h4 => have := cross h3; omega
  case ma c m h1 h2 h3 =>
    have : 0 < P.nq := hg (by rintro e; rw [e] at h1; cases h1) (by omega)
    omega
  case mv c q h1 h2 =>
    obtain ⟨hlt, -⟩ := List.getElem?_eq_some_iff.1 (get_pos h1)
    have h3 : pos P c / P.nt ≤ (cells P).length := by
      have := Nat.div_le_self (pos P c) P.nt
      omega
    have h4 := Nat.mul_le_mul_right (2 * P.nq + 5) h3
    have h5 : ((cells P).length + 1) * (2 * P.nq + 5) = (cells P).length * (2 * P.nq + 5) + (2 * P.nq + 5) := by ring
    omega

theorem gen_nq {l : List Call} (h : generate P = some l) : cells P ≠ [] → 0 < P.maxOrder → 0 < P.nq := by
  intro h1 h2
  by_contra h3
  unfold generate at h
  rw [if_pos ⟨by omega, h2, h1⟩] at h
  cases h

theorem trans_rank (hn : 0 < P.nt) (hg : cells P ≠ [] → 0 < P.maxOrder → 0 < P.nq)
    (h : Relation.TransGen (Lk P) a b) : rank P a < rank P b := by
  induction h with
  | single h => exact lk_rank hn hg h
  | tail _ h ih => exact Nat.lt_trans ih (lk_rank hn hg h)

/-! ## Two tasks of one slot -/

theorem before_stage (hP : Sensible P) (ha : Tsk P a) (hb : Tsk P b) (hca : cellOf a = some c)
    (hcb : cellOf b = some c) (h : stg P a < stg P b) : Relation.TransGen (Lk P) a b :=
  line_lt hP.slots hP.orders (Nat.lt_of_lt_of_le hP.orders hP.le) ⟨ha, hca, rfl⟩ ⟨hb, hcb, rfl⟩ rfl (by omega)

theorem before_cell (hP : Sensible P) (ha : Tsk P a) (hb : Tsk P b) (hca : cellOf a = some c)
    (hcb : cellOf b = some c') (hs : slot P c = slot P c') (h : pos P c < pos P c') :
    Relation.TransGen (Lk P) a b := by
  refine line_lt hP.slots hP.orders (Nat.lt_of_lt_of_le hP.orders hP.le) ⟨ha, hca, rfl⟩ ⟨hb, hcb, rfl⟩ hs ?_
  have h1 : pos P c / P.nt < pos P c' / P.nt := by
    by_contra h1
    have h2 : pos P c / P.nt = pos P c' / P.nt :=
      Nat.le_antisymm (Nat.div_le_div_right (by omega)) (by omega)
    have := pos_eq hs h2
    omega
  have h2 := Nat.mul_le_mul_right (2 * P.nq + 5) (Nat.succ_le_of_lt h1)
  rw [Nat.succ_mul] at h2
  have := stg_lt ha hca
  omega

/-- two cells are the same or one comes first -/
theorem cell_cases (hc : c ∈ cells P) (hc' : c' ∈ cells P) : c = c' ∨ pos P c < pos P c' ∨ pos P c' < pos P c := by
  rcases Nat.lt_trichotomy (pos P c) (pos P c') with h | h | h
  · exact .inr (.inl h)
  · exact .inl (pos_inj hc hc' h)
  · exact .inr (.inr h)

theorem mem_whole {i : Nat} {x : Loc} : x ∈ whole P i ↔ x = .head i ∨ ∃ m ≤ P.maxOrder, x = .block i m := by
  simp [whole, Nat.lt_succ_iff, eq_comm]

/-- the writers, data by data -/
theorem writers {x : Loc} (h : x ∈ writes P w) :
    match x with
    | .nbased => w = .nbased
    | .gauss i => w = .gauss i
    | .grid q => w = .grid q
    | .swig q => w = .swig q
    | .wigner i => w = .wigner i
    | .geom is ig => w = .geom is ig
    | .unav q c => w = .meas q c
    | .result q p => w = .avg q p
    | .conv c => ∃ ig, w = .m0 c ig
    | .inter s => ∃ c, slot P c = s ∧ ((∃ ig, w = .inter c ig) ∨ w = .reset3 c)
    | .head i => ∃ c, (2 * slot P c = i ∧ ((∃ ig, w = .m0 c ig) ∨ w = .reset1 c)) ∨
        (2 * slot P c + 1 = i ∧ (w = .align c ∨ w = .reset2 c))
    | .block i m => ∃ c, (2 * slot P c = i ∧ ((m = 0 ∧ ∃ ig, w = .m0 c ig) ∨ w = .mall c m ∨ w = .reset1 c)) ∨
        (2 * slot P c + 1 = i ∧ (w = .align c ∨ w = .reset2 c)) := by
  cases w <;> simp only [writes, mem_whole, List.mem_cons, List.not_mem_nil, or_false] at h
  case m0 c ig => rcases h with rfl | rfl | rfl <;> simp
  case align c => rcases h with rfl | ⟨m, hm, rfl⟩ <;> simp
  case reset1 c => rcases h with rfl | ⟨m, hm, rfl⟩ <;> simp
  case reset2 c => rcases h with rfl | ⟨m, hm, rfl⟩ <;> simp
  all_goals subst h; simp

/-- a reader, its source and another writer, reader and source in one calculation -/
theorem order_same (hP : Sensible P) (ha : Tsk P a) (hb : Tsk P b) (hw : Tsk P w) (hca : cellOf a = some c)
    (hcb : cellOf b = some c) (hcw : cellOf w = some c') (hs : slot P c' = slot P c)
    (h : c' = c → w = a ∨ w = b ∨ stg P w < stg P a ∨ stg P b < stg P w) :
    w = a ∨ w = b ∨ Relation.TransGen (Lk P) w a ∨ Relation.TransGen (Lk P) b w := by
  rcases cell_cases (tsk_cell hw hcw) (tsk_cell ha hca) with rfl | h1 | h1
  · rcases h rfl with h | h | h | h
    · exact .inl h
    · exact .inr (.inl h)
    · exact .inr (.inr (.inl (before_stage hP hw ha hcw hca h)))
    · exact .inr (.inr (.inr (before_stage hP hb hw hcb hcw h)))
  · exact .inr (.inr (.inl (before_cell hP hw ha hcw hca hs h1)))
  · exact .inr (.inr (.inr (before_cell hP hb hw hcb hcw hs.symm h1)))

/-- the same with the source in the previous calculation on the slot -/
theorem order_prev {d : Cell} (hP : Sensible P) (ha : Tsk P a) (hb : Tsk P b) (hw : Tsk P w) (hca : cellOf a = some d)
    (hcb : cellOf b = some c) (hcw : cellOf w = some c') (hd : pos P c = pos P d + P.nt)
    (hs : slot P c' = slot P c)
    (h1 : c' = d → w = a ∨ stg P w < stg P a) (h2 : c' = c → w = b ∨ stg P b < stg P w) :
    w = a ∨ w = b ∨ Relation.TransGen (Lk P) w a ∨ Relation.TransGen (Lk P) b w := by
  have hs' : slot P c' = slot P d := by
    rw [hs]; unfold slot; rw [hd, Nat.add_mod_right]
  rcases cell_cases (tsk_cell hw hcw) (tsk_cell ha hca) with rfl | h3 | h3
  · rcases h1 rfl with h | h
    · exact .inl h
    · exact .inr (.inr (.inl (before_stage hP hw ha hcw hca h)))
  · exact .inr (.inr (.inl (before_cell hP hw ha hcw hca hs' h3)))
  · rcases cell_cases (tsk_cell hw hcw) (tsk_cell hb hcb) with rfl | h4 | h4
    · rcases h2 rfl with h | h
      · exact .inr (.inl h)
      · exact .inr (.inr (.inr (before_stage hP hb hw hcb hcw h)))
    · exfalso
      unfold slot at hs'
      have e1 := Nat.div_add_mod (pos P c') P.nt
      have e2 := Nat.div_add_mod (pos P d) P.nt
      rw [hs'] at e1
      have h5 : pos P d / P.nt < pos P c' / P.nt := by
        by_contra h5
        have := Nat.mul_le_mul_left P.nt (Nat.le_of_not_lt h5)
        omega
      have := Nat.mul_le_mul_left P.nt (Nat.succ_le_of_lt h5)
      rw [Nat.mul_succ] at this
      omega
    · exact .inr (.inr (.inr (before_cell hP hb hw hcb hcw hs.symm h4)))

/-- the same for data that nobody wrote before the reader -/
theorem order_none (hP : Sensible P) (hb : Tsk P b) (hw : Tsk P w)
    (hcb : cellOf b = some c) (hcw : cellOf w = some c') (hs : slot P c' = slot P c)
    (h1 : pos P c < P.nt ∨ c' = c) (h2 : c' = c → w = b ∨ stg P b < stg P w) :
    w = b ∨ Relation.TransGen (Lk P) b w := by
  rcases cell_cases (tsk_cell hw hcw) (tsk_cell hb hcb) with rfl | h4 | h4
  · rcases h2 rfl with h | h
    · exact .inl h
    · exact .inr (before_stage hP hb hw hcb hcw h)
  · exfalso
    rcases h1 with h1 | rfl
    · unfold slot at hs
      rw [Nat.mod_eq_of_lt h1, Nat.mod_eq_of_lt (by omega)] at hs
      omega
    · omega
  · exact .inr (before_cell hP hb hw hcb hcw hs.symm h4)

/-- what is read has its intended content -/
def SeesLk (P : Params) (b : Tk) (x : Loc) : Prop :=
  (∃ a, source P b x = some a ∧ Tsk P a ∧ x ∈ writes P a ∧ Relation.TransGen (Lk P) a b ∧
    ∀ w, Tsk P w → x ∈ writes P w → w = a ∨ w = b ∨ Relation.TransGen (Lk P) w a ∨ Relation.TransGen (Lk P) b w) ∨
  (source P b x = none ∧ ∀ w, Tsk P w → x ∈ writes P w → w = b ∨ Relation.TransGen (Lk P) b w)

/-- data with a single writer -/
theorem sees_single {x : Loc} (hs : source P b x = some a) (ha : Tsk P a) (hx : x ∈ writes P a)
    (ht : Relation.TransGen (Lk P) a b) (hw : ∀ w, x ∈ writes P w → w = a) : SeesLk P b x :=
  .inl ⟨a, hs, ha, hx, ht, fun w _ h => .inl (hw w h)⟩

theorem tk_gauss_m0 (hc : c ∈ cells P) {ig : Nat} (h : ig < P.nq) : Relation.TransGen (Lk P) (.gauss ig) (.m0 c ig) :=
  .tail (.single (.wigner h)) (.wm hc h)

theorem tk_geom_m0 (hc : c ∈ cells P) {ig : Nat} (h : ig < P.nq) :
    Relation.TransGen (Lk P) (.geom c.ish ig) (.m0 c ig) :=
  .tail (.single (.gi hc h)) (.im hc h)

theorem tk_m0_mall (hP : Sensible P) (hc : c ∈ cells P) {ig m : Nat} (h : ig < P.nq) (hm : 0 < m) (hm' : m ≤ P.maxOrder) :
    Relation.TransGen (Lk P) (.m0 c ig) (.mall c m) :=
  before_stage hP (c := c) ⟨hc, h⟩ ⟨hc, hm, hm'⟩ rfl rfl (by simp only [stg]; omega)

theorem sees_inter (hP : Sensible P) {ig : Nat} (hb : Tsk P (.inter c ig)) {x : Loc}
    (hx : x ∈ reads P (.inter c ig)) : SeesLk P (.inter c ig) x := by
  obtain ⟨hc, hig⟩ := hb
  have hsh := (mem_cells.1 hc).2
  simp only [reads, List.mem_cons, List.not_mem_nil, or_false] at hx
  rcases hx with rfl | rfl
  · exact sees_single rfl ⟨hsh, hig⟩ (by simp [writes]) (.single (.gi hc hig)) (fun w h => writers h)
  · by_cases h0 : ig = 0
    · refine .inr ⟨by simp [source, h0], ?_⟩
      intro w hw h
      obtain ⟨i, rfl⟩ := writers h
      refine order_none hP ⟨hc, hig⟩ hw rfl rfl rfl (.inr rfl) ?_
      intro _; right; simp only [stg]; omega
    · refine .inl ⟨.m0 c (ig - 1), by simp [source, h0], ⟨hc, by omega⟩, by simp [writes], ?_, ?_⟩
      · exact before_stage hP (c := c) ⟨hc, by omega⟩ ⟨hc, hig⟩ rfl rfl (by simp only [stg]; omega)
      · intro w hw h
        obtain ⟨i, rfl⟩ := writers h
        refine order_same hP ⟨hc, by omega⟩ ⟨hc, hig⟩ hw rfl rfl rfl rfl ?_
        intro _
        simp only [stg, Tk.m0.injEq, true_and, reduceCtorEq, false_or]
        omega

theorem sees_m0 (hP : Sensible P) {ig : Nat} (hb : Tsk P (.m0 c ig)) {x : Loc}
    (hx : x ∈ reads P (.m0 c ig)) : SeesLk P (.m0 c ig) x := by
  obtain ⟨hc, hig⟩ := hb
  have hsh := (mem_cells.1 hc).2
  simp only [reads, List.mem_cons, List.not_mem_nil, or_false] at hx
  rcases hx with rfl | rfl | rfl | rfl | rfl | rfl | hx
  · exact sees_single rfl trivial (by simp [writes]) (.single (.nb hc hig)) (fun w h => writers h)
  · exact sees_single rfl hig (by simp [writes]) (tk_gauss_m0 hc hig) (fun w h => writers h)
  · exact sees_single rfl ⟨hsh, hig⟩ (by simp [writes]) (tk_geom_m0 hc hig) (fun w h => writers h)
  · exact sees_single rfl hig (by simp [writes]) (.single (.wm hc hig)) (fun w h => writers h)
  · refine .inl ⟨.inter c ig, rfl, ⟨hc, hig⟩, by simp [writes], .single (.im hc hig), ?_⟩
    intro w hw h
    obtain ⟨c', hs, ⟨i, rfl⟩ | rfl⟩ := writers h
    · refine order_same hP ⟨hc, hig⟩ ⟨hc, hig⟩ hw rfl rfl rfl hs ?_
      rintro rfl
      simp only [stg, Tk.inter.injEq, true_and, reduceCtorEq, false_or]; omega
    · refine order_same hP ⟨hc, hig⟩ ⟨hc, hig⟩ hw rfl rfl rfl hs ?_
      rintro rfl
      simp only [stg, reduceCtorEq, false_or]; omega
  · by_cases h0 : ig = 0
    · refine .inr ⟨by simp [source, h0], ?_⟩
      intro w hw h
      obtain ⟨i, rfl⟩ := writers h
      refine order_none hP ⟨hc, hig⟩ hw rfl rfl rfl (.inr rfl) ?_
      intro _; simp only [stg, Tk.m0.injEq, true_and]; omega
    · refine .inl ⟨.m0 c (ig - 1), by simp [source, h0], ⟨hc, by omega⟩, by simp [writes], ?_, ?_⟩
      · exact before_stage hP (c := c) ⟨hc, by omega⟩ ⟨hc, hig⟩ rfl rfl (by simp only [stg]; omega)
      · intro w hw h
        obtain ⟨i, rfl⟩ := writers h
        refine order_same hP ⟨hc, by omega⟩ ⟨hc, hig⟩ hw rfl rfl rfl rfl ?_
        intro _
        simp only [stg, Tk.m0.injEq, true_and]
        omega
  · -- the T-matrix
    have hsrc : source P (.m0 c ig) x = if ig = 0 then
        (if P.nt ≤ pos P c then ((cells P)[pos P c - P.nt]?).map .reset1 else none) else some (.m0 c (ig - 1)) := by
      rcases hx with rfl | rfl <;> rfl
    have hwr : ∀ w, Tsk P w → x ∈ writes P w → ∃ c', slot P c' = slot P c ∧ cellOf w = some c' ∧
        ((∃ i, w = .m0 c' i) ∨ w = .reset1 c') := by
      intro w hw h
      rcases hx with rfl | rfl
      · obtain ⟨c', ⟨h1, h2⟩ | ⟨h1, h2⟩⟩ := writers h
        · refine ⟨c', by omega, ?_, h2⟩
          rcases h2 with ⟨i, rfl⟩ | rfl <;> rfl
        · omega
      · obtain ⟨c', ⟨h1, h2⟩ | ⟨h1, h2⟩⟩ := writers h
        · refine ⟨c', by omega, ?_⟩
          rcases h2 with ⟨_, i, rfl⟩ | rfl | rfl
          · exact ⟨rfl, .inl ⟨i, rfl⟩⟩
          · exact absurd hw.2.1 (by omega)
          · exact ⟨rfl, .inr rfl⟩
        · omega
    have hmw : ∀ i, x ∈ writes P (.m0 c i) := by
      intro i; rcases hx with rfl | rfl <;> simp [writes]
    by_cases h0 : ig = 0
    · subst h0
      rw [if_pos rfl] at hsrc
      by_cases hk : P.nt ≤ pos P c
      · rw [if_pos hk] at hsrc
        obtain ⟨hlt, -⟩ := List.getElem?_eq_some_iff.1 (get_pos hc)
        have hg : (cells P)[pos P c - P.nt]? = some ((cells P)[pos P c - P.nt]'(by omega)) :=
          List.getElem?_eq_getElem _
        generalize (cells P)[pos P c - P.nt]'(by omega) = d at hg
        rw [hg] at hsrc
        have hdm : d ∈ cells P := List.mem_of_getElem? hg
        have hd : pos P c = pos P d + P.nt := by rw [pos_of_get hg]; omega
        have hn := hP.slots
        have hsd : slot P d = slot P c := by unfold slot; rw [hd, Nat.add_mod_right]
        refine .inl ⟨.reset1 d, hsrc, hdm, ?_, ?_, ?_⟩
        · rcases hx with rfl | rfl <;> simp [writes, mem_whole, hsd]
        · exact before_cell hP (c := d) (c' := c) hdm ⟨hc, hig⟩ rfl rfl hsd (by omega)
        · intro w hw h
          obtain ⟨c', h1, h2, h3⟩ := hwr w hw h
          refine order_prev (d := d) hP hdm ⟨hc, hig⟩ hw rfl rfl h2 hd h1 ?_ ?_
          · rintro rfl
            rcases h3 with ⟨i, rfl⟩ | rfl
            · right; have := hw.2; simp only [stg]; omega
            · exact .inl rfl
          · rintro rfl
            rcases h3 with ⟨i, rfl⟩ | rfl
            · simp only [stg, Tk.m0.injEq, true_and]; omega
            · right; simp only [stg]; omega
      · rw [if_neg hk] at hsrc
        refine .inr ⟨hsrc, ?_⟩
        intro w hw h
        obtain ⟨c', h1, h2, h3⟩ := hwr w hw h
        refine order_none hP ⟨hc, hig⟩ hw rfl h2 h1 (.inl (by omega)) ?_
        rintro rfl
        rcases h3 with ⟨i, rfl⟩ | rfl
        · simp only [stg, Tk.m0.injEq, true_and]; omega
        · right; simp only [stg]; omega
    · rw [if_neg h0] at hsrc
      refine .inl ⟨.m0 c (ig - 1), hsrc, ⟨hc, by omega⟩, hmw _, ?_, ?_⟩
      · exact before_stage hP (c := c) ⟨hc, by omega⟩ ⟨hc, hig⟩ rfl rfl (by simp only [stg]; omega)
      · intro w hw h
        obtain ⟨c', h1, h2, h3⟩ := hwr w hw h
        refine order_same hP ⟨hc, by omega⟩ ⟨hc, hig⟩ hw rfl rfl h2 h1 ?_
        rintro rfl
        rcases h3 with ⟨i, rfl⟩ | rfl
        · simp only [stg, Tk.m0.injEq, true_and]; omega
        · simp only [stg, reduceCtorEq, false_or]; omega

theorem sees_mall (hP : Sensible P) {m : Nat} (hb : Tsk P (.mall c m)) {x : Loc}
    (hx : x ∈ reads P (.mall c m)) : SeesLk P (.mall c m) x := by
  obtain ⟨hc, hm, hm'⟩ := hb
  have hq := hP.orders
  have hsh := (mem_cells.1 hc).2
  simp only [reads, List.mem_append, List.mem_cons, List.not_mem_nil, or_false, List.mem_flatMap,
    List.mem_range] at hx
  rcases hx with (rfl | rfl | rfl) | ⟨ig, hig, rfl | rfl | rfl⟩
  · exact sees_single rfl trivial (by simp [writes]) (.head (.nb hc hq) (tk_m0_mall hP hc hq hm hm'))
      (fun w h => writers h)
  · refine .inl ⟨.m0 c (P.nq - 1), rfl, ⟨hc, by omega⟩, by simp [writes], tk_m0_mall hP hc (by omega) hm hm', ?_⟩
    intro w hw h
    obtain ⟨i, rfl⟩ := writers h
    refine order_same hP ⟨hc, by omega⟩ ⟨hc, hm, hm'⟩ hw rfl rfl rfl rfl ?_
    intro _
    have := hw.2
    simp only [stg, Tk.m0.injEq, true_and, reduceCtorEq, false_or]
    omega
  · refine .inl ⟨.inter c (P.nq - 1), rfl, ⟨hc, by omega⟩, by simp [writes], ?_, ?_⟩
    · exact .head (.im hc (by omega)) (tk_m0_mall hP hc (by omega) hm hm')
    · intro w hw h
      obtain ⟨c', hs, ⟨i, rfl⟩ | rfl⟩ := writers h
      · refine order_same hP ⟨hc, by omega⟩ ⟨hc, hm, hm'⟩ hw rfl rfl rfl hs ?_
        rintro rfl
        have := hw.2
        simp only [stg, Tk.inter.injEq, true_and, reduceCtorEq, false_or]; omega
      · refine order_same hP ⟨hc, by omega⟩ ⟨hc, hm, hm'⟩ hw rfl rfl rfl hs ?_
        rintro rfl
        simp only [stg, reduceCtorEq, false_or]; omega
  · exact sees_single rfl hig (by simp [writes]) (.trans (tk_gauss_m0 hc hig) (tk_m0_mall hP hc hig hm hm'))
      (fun w h => writers h)
  · exact sees_single rfl ⟨hsh, hig⟩ (by simp [writes])
      (.trans (tk_geom_m0 hc hig) (tk_m0_mall hP hc hig hm hm')) (fun w h => writers h)
  · exact sees_single rfl hig (by simp [writes]) (.head (.wm hc hig) (tk_m0_mall hP hc hig hm hm'))
      (fun w h => writers h)

theorem sees_align (hP : Sensible P) (hb : Tsk P (.align c)) {x : Loc}
    (hx : x ∈ reads P (.align c)) : SeesLk P (.align c) x := by
  have hc : c ∈ cells P := hb
  have hq := hP.orders
  have m0case : ∀ y, (y = .head (2 * slot P c) ∨ y = .block (2 * slot P c) 0) →
      (∀ w, Tsk P w → y ∈ writes P w → ∃ c', slot P c' = slot P c ∧ cellOf w = some c' ∧
        ((∃ i, w = .m0 c' i) ∨ w = .reset1 c')) → source P (.align c) y = some (.m0 c (P.nq - 1)) →
      SeesLk P (.align c) y := by
    intro y hy hwr hsrc
    refine .inl ⟨_, hsrc, ⟨hc, by omega⟩, by rcases hy with rfl | rfl <;> simp [writes], ?_, ?_⟩
    · exact before_stage hP (c := c) ⟨hc, by omega⟩ hb rfl rfl (by simp only [stg]; omega)
    · intro w hw h
      obtain ⟨c', h1, h2, h3⟩ := hwr w hw h
      refine order_same hP ⟨hc, by omega⟩ hb hw rfl rfl h2 h1 ?_
      rintro rfl
      rcases h3 with ⟨i, rfl⟩ | rfl
      · have := hw.2
        simp only [stg, Tk.m0.injEq, true_and, reduceCtorEq, false_or]; omega
      · simp only [stg, reduceCtorEq, false_or]; omega
  simp only [reads, mem_whole] at hx
  rcases hx with rfl | ⟨m, hm, rfl⟩
  · refine m0case _ (.inl rfl) ?_ rfl
    intro w hw h
    obtain ⟨c', ⟨h1, h2⟩ | ⟨h1, h2⟩⟩ := writers h
    · refine ⟨c', by omega, ?_, h2⟩
      rcases h2 with ⟨i, rfl⟩ | rfl <;> rfl
    · omega
  · by_cases h0 : m = 0
    · subst h0
      refine m0case _ (.inr rfl) ?_ rfl
      intro w hw h
      obtain ⟨c', ⟨h1, h2⟩ | ⟨h1, h2⟩⟩ := writers h
      · refine ⟨c', by omega, ?_⟩
        rcases h2 with ⟨_, i, rfl⟩ | rfl | rfl
        · exact ⟨rfl, .inl ⟨i, rfl⟩⟩
        · exact absurd hw.2.1 (by omega)
        · exact ⟨rfl, .inr rfl⟩
      · omega
    · refine .inl ⟨.mall c m, by simp [source, h0], ⟨hc, by omega, hm⟩, by simp [writes],
        .single (.al hc (by omega) hm), ?_⟩
      intro w hw h
      obtain ⟨c', ⟨h1, h2⟩ | ⟨h1, h2⟩⟩ := writers h
      · rcases h2 with ⟨h2, _⟩ | rfl | rfl
        · exact absurd h2 h0
        · refine order_same hP (c := c) ⟨hc, by omega, hm⟩ hb hw rfl rfl rfl (by omega) ?_
          rintro rfl; exact .inl rfl
        · refine order_same hP (c := c) ⟨hc, by omega, hm⟩ hb hw rfl rfl rfl (by omega) ?_
          rintro rfl; simp only [stg, reduceCtorEq, false_or]; omega
      · omega

theorem sees_meas (hP : Sensible P) {q : Qty} (hb : Tsk P (.meas q c)) {x : Loc}
    (hx : x ∈ reads P (.meas q c)) : SeesLk P (.meas q c) x := by
  obtain ⟨hc, hq⟩ := hb
  simp only [reads, mem_whole, List.mem_append, List.mem_cons, List.not_mem_nil, or_false] at hx
  rcases hx with (rfl | rfl | rfl) | hx
  · refine sees_single rfl trivial (by simp [writes]) (.head (.nb (ig := 0) hc hP.orders) ?_) (fun w h => writers h)
    exact before_stage hP (c := c) ⟨hc, hP.orders⟩ ⟨hc, hq⟩ rfl rfl (by simp only [stg]; omega)
  · exact sees_single rfl hq (by simp [writes]) (.head (.swig hq) (.single (.sm hc hq))) (fun w h => writers h)
  · exact sees_single rfl hq (by simp [writes]) (.single (.sm hc hq)) (fun w h => writers h)
  · refine .inl ⟨.align c, ?_, hc, ?_, .single (.am hc hq), ?_⟩
    · rcases hx with rfl | ⟨m, hm, rfl⟩ <;> rfl
    · rcases hx with rfl | ⟨m, hm, rfl⟩
      · simp [writes, mem_whole]
      · simp only [writes, mem_whole]; exact .inr ⟨m, hm, rfl⟩
    · intro w hw h
      have : ∃ c', slot P c' = slot P c ∧ (w = .align c' ∨ w = .reset2 c') := by
        rcases hx with rfl | ⟨m, hm, rfl⟩ <;> obtain ⟨c', ⟨h1, h2⟩ | ⟨h1, h2⟩⟩ := writers h <;>
          first | omega | exact ⟨c', by omega, h2⟩
      obtain ⟨c', hs, rfl | rfl⟩ := this
      · refine order_same hP (c := c) hc ⟨hc, hq⟩ hw rfl rfl rfl hs ?_
        rintro rfl; exact .inl rfl
      · refine order_same hP (c := c) hc ⟨hc, hq⟩ hw rfl rfl rfl hs ?_
        rintro rfl; simp only [stg, reduceCtorEq, false_or]; omega

theorem sees (hP : Sensible P) (hb : Tsk P b) {x : Loc} (hx : x ∈ reads P b) : SeesLk P b x := by
  cases b with
  | inter c ig => exact sees_inter hP hb hx
  | m0 c ig => exact sees_m0 hP hb hx
  | mall c m => exact sees_mall hP hb hx
  | align c => exact sees_align hP hb hx
  | meas q c => exact sees_meas hP hb hx
  | swig q =>
    simp only [reads, List.mem_cons, List.not_mem_nil, or_false] at hx
    subst hx
    exact sees_single rfl hb (by simp [writes]) (.single (.swig hb)) (fun w h => writers h)
  | wigner i =>
    simp only [reads, List.mem_cons, List.not_mem_nil, or_false] at hx
    subst hx
    exact sees_single rfl hb (by simp [writes]) (.single (.wigner hb)) (fun w h => writers h)
  | geom is ig =>
    simp only [reads, List.mem_cons, List.not_mem_nil, or_false] at hx
    subst hx
    exact sees_single rfl hb.2 (by simp [writes]) (.single (.geom hb.1 hb.2)) (fun w h => writers h)
  | avg q p =>
    simp only [reads, List.mem_map, List.mem_range] at hx
    obtain ⟨i, hi, rfl⟩ := hx
    have hc : (⟨p, i⟩ : Cell) ∈ cells P := mem_cells.2 ⟨hb.2, hi⟩
    exact sees_single rfl ⟨hc, hb.1⟩ (by simp [writes]) (.single (.mv hc hb.1)) (fun w h => writers h)
  | _ => simp [reads] at hx

/-- two writers of the same data are ordered -/
theorem writers_ordered (hP : Sensible P) (ha : Tsk P a) (hb : Tsk P b) {x : Loc} (h1 : x ∈ writes P a)
    (h2 : x ∈ writes P b) : a = b ∨ Relation.TransGen (Lk P) a b ∨ Relation.TransGen (Lk P) b a := by
  have key : ∀ {c c' : Cell}, cellOf a = some c → cellOf b = some c' → slot P c = slot P c' →
      (c = c' → a = b ∨ stg P a < stg P b ∨ stg P b < stg P a) →
      a = b ∨ Relation.TransGen (Lk P) a b ∨ Relation.TransGen (Lk P) b a := by
    intro c c' hc hc' hs h
    rcases cell_cases (tsk_cell ha hc) (tsk_cell hb hc') with rfl | h1 | h1
    · rcases h rfl with h | h | h
      · exact .inl h
      · exact .inr (.inl (before_stage hP ha hb hc hc' h))
      · exact .inr (.inr (before_stage hP hb ha hc' hc h))
    · exact .inr (.inl (before_cell hP ha hb hc hc' hs h1))
    · exact .inr (.inr (before_cell hP hb ha hc' hc hs.symm h1))
  have w1 := writers h1
  have w2 := writers h2
  cases x with
  | inter s =>
    obtain ⟨c, hs, ⟨i, rfl⟩ | rfl⟩ := w1 <;> obtain ⟨c', hs', ⟨j, rfl⟩ | rfl⟩ := w2
    all_goals
      refine key rfl rfl (by omega) ?_
      rintro rfl
      simp only [Tsk] at ha hb
      simp only [stg, Tk.inter.injEq, true_and, reduceCtorEq, false_or, true_or]; try omega
  | conv c =>
    obtain ⟨i, rfl⟩ := w1
    obtain ⟨j, rfl⟩ := w2
    refine key rfl rfl rfl ?_
    intro _
    simp only [stg, Tk.m0.injEq, true_and]; omega
  | head i =>
    obtain ⟨c, ⟨hs, ⟨i, rfl⟩ | rfl⟩ | ⟨hs, rfl | rfl⟩⟩ := w1 <;>
      obtain ⟨c', ⟨hs', ⟨j, rfl⟩ | rfl⟩ | ⟨hs', rfl | rfl⟩⟩ := w2
    all_goals first
      | omega
      | (refine key rfl rfl (by omega) ?_
         rintro rfl
         simp only [Tsk] at ha hb
         simp only [stg, Tk.m0.injEq, true_and, reduceCtorEq, false_or, true_or]; try omega)
  | block i m =>
    obtain ⟨c, ⟨hs, ⟨h0, i, rfl⟩ | rfl | rfl⟩ | ⟨hs, rfl | rfl⟩⟩ := w1 <;>
      obtain ⟨c', ⟨hs', ⟨h0', j, rfl⟩ | rfl | rfl⟩ | ⟨hs', rfl | rfl⟩⟩ := w2
    all_goals first
      | omega
      | (refine key rfl rfl (by omega) ?_
         rintro rfl
         simp only [Tsk] at ha hb
         simp only [stg, Tk.m0.injEq, true_and, reduceCtorEq, false_or, true_or]; try omega)
  | _ => simp only at w1 w2; exact .inl (w1.trans w2.symm)

end Verif.Graph
