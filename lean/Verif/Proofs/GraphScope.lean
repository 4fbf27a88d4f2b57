import Verif.Proofs.GraphOrder

/-!
# The task graph: every object is registered once, and before it is used
-/
namespace Verif.Graph

variable {P : Params}

/-! ## Registered once -/

/-- registrations and locks -/
inductive Reg
  | t (t : Tk)
  | r (r : Rs)
  | l (t : Tk) (r : Rs)
  deriving DecidableEq

def regOf : Call → Option Reg
  | .task t => some (.t t)
  | .res r _ => some (.r r)
  | .lock t r => some (.l t r)
  | _ => none

def regs (l : List Call) : List Reg := l.filterMap regOf

theorem regs_append (a b : List Call) : regs (a ++ b) = regs a ++ regs b := by simp [regs]

theorem regs_flatMap {α} (l : List α) (f : α → List Call) : regs (l.flatMap f) = l.flatMap fun a => regs (f a) := by
  induction l with
  | nil => rfl
  | cons a l ih => simp only [List.flatMap_cons, regs_append, ih]

/-- registrations and locks for one T-matrix -/
def cellRegs (P : Params) (c : Cell) (s : Nat) : List Reg :=
  (qtys P).map (fun q => .r (.unav q c)) ++ [.r (.conv c)]
  ++ (List.range P.nq).flatMap (fun ig => [.t (.inter c ig), .l (.inter c ig) (.inter s), .t (.m0 c ig),
      .l (.m0 c ig) (.tmM (2 * s) 0), .l (.m0 c ig) (.conv c)])
  ++ [.t (.align c), .l (.align c) (.tm (2 * s))]
  ++ (qtys P).flatMap (fun q => [.t (.meas q c), .l (.meas q c) (.unav q c)])
  ++ [.t (.reset1 c), .l (.reset1 c) (.tm (2 * s)), .t (.reset2 c), .l (.reset2 c) (.tm (2 * s + 1)),
      .t (.reset3 c), .l (.reset3 c) (.inter s)]
  ++ (List.range P.maxOrder).flatMap (fun i => [.t (.mall c (i + 1)), .l (.mall c (i + 1)) (.tmM (2 * s) (i + 1))])

theorem regs_map_res {α} (l : List α) (f : α → Rs) (g : α → Option Rs) :
    regs (l.map fun a => Call.res (f a) (g a)) = l.map fun a => Reg.r (f a) := by
  simp [regs, regOf, List.filterMap_map, Function.comp_def]

theorem regs_cell (c : Cell) (s : Nat) (u : Option Tk) : regs (cellCalls P c s u) = cellRegs P c s := by
  unfold cellCalls cellRegs
  simp only [regs_append, regs_flatMap, regs_map_res]
  have h1 : ∀ ig, regs (orderCalls c s u ig) = [.t (.inter c ig), .l (.inter c ig) (.inter s), .t (.m0 c ig),
      .l (.m0 c ig) (.tmM (2 * s) 0), .l (.m0 c ig) (.conv c)] := by
    intro ig
    cases u <;> by_cases h : ig = 0 <;> simp [orderCalls, regs, regOf, h, List.filterMap_cons]
  have h2 : ∀ q, regs (measCalls c s q) = [.t (.meas q c), .l (.meas q c) (.unav q c)] := by
    intro q; simp [measCalls, regs, regOf, List.filterMap_cons]
  have h3 : regs (resetCalls P c s) = [.t (.reset1 c), .l (.reset1 c) (.tm (2 * s)), .t (.reset2 c),
      .l (.reset2 c) (.tm (2 * s + 1)), .t (.reset3 c), .l (.reset3 c) (.inter s)] := by
    have : ∀ l : List Qty, regs (l.map fun q => Call.link (.meas q c) (.reset2 c)) = [] := by
      intro l; simp [regs, regOf]
    unfold resetCalls
    rw [regs_append, regs_append, this]
    simp [regs, regOf, List.filterMap_cons]
  have h4 : ∀ i, regs (mallCalls P c s i)
      = [.t (.mall c (i + 1)), .l (.mall c (i + 1)) (.tmM (2 * s) (i + 1))] := by
    intro i; simp [mallCalls, regs, regOf, List.filterMap_cons]
  simp only [h1, h2, h3, h4]
  rfl

theorem nodup_qtys : (qtys P).Nodup := by
  unfold qtys
  exact List.Nodup.filter _ (by decide)

theorem nodup_flatMap_key {α β} {l : List α} (hl : l.Nodup) {f : α → List β} (h1 : ∀ a ∈ l, (f a).Nodup)
    (h2 : ∀ a b x, x ∈ f a → x ∈ f b → a = b) : (l.flatMap f).Nodup := by
  rw [List.nodup_flatMap]
  refine ⟨h1, hl.imp ?_⟩
  intro a b hab x hx hx'
  exact hab (h2 a b x hx hx')

/-- number of the block of calls in which a task is registered -/
def tagT : Tk → Nat
  | .nbased => 0 | .gauss _ => 1 | .grid _ => 2 | .swig _ => 3 | .wigner _ => 4 | .geom _ _ => 5
  | .avg _ _ => 8 | .inter _ _ => 11 | .m0 _ _ => 11 | .align _ => 12 | .meas _ _ => 13
  | .reset1 _ => 14 | .reset2 _ => 14 | .reset3 _ => 14 | .mall _ _ => 15

def tagR : Rs → Nat
  | .nbased => 0 | .gauss _ => 1 | .grid _ => 2 | .swig _ => 3 | .wigner _ => 4 | .geom _ _ => 5
  | .inter _ => 6 | .tm _ => 7 | .tmM _ _ => 7 | .intvars _ => 8 | .result _ _ => 8 | .unav _ _ => 9 | .conv _ => 10

def tag : Reg → Nat
  | .t t => tagT t
  | .r r => tagR r
  | .l t _ => tagT t

theorem nodup_tag {A B : List Reg} (k : Nat) (hA : A.Nodup ∧ ∀ x ∈ A, tag x < k) (hB : B.Nodup)
    (hk : ∀ x ∈ B, tag x = k) : (A ++ B).Nodup ∧ ∀ x ∈ A ++ B, tag x < k + 1 := by
  refine ⟨?_, ?_⟩
  · rw [List.nodup_append]
    refine ⟨hA.1, hB, ?_⟩
    rintro a ha b hb rfl
    have := hA.2 a ha
    have := hk a hb
    omega
  · intro x hx
    rcases List.mem_append.1 hx with h | h
    · have := hA.2 x h; omega
    · have := hk x h; omega

theorem nodup_cellRegs (c : Cell) (s : Nat) : (cellRegs P c s).Nodup := by
  unfold cellRegs
  have h1 : ((List.range P.nq).flatMap (fun ig => [Reg.t (.inter c ig), .l (.inter c ig) (.inter s), .t (.m0 c ig),
      .l (.m0 c ig) (.tmM (2 * s) 0), .l (.m0 c ig) (.conv c)])).Nodup := by
    refine nodup_flatMap_key List.nodup_range ?_ ?_
    · intro ig _; simp
    · intro a b x hx hx'
      simp only [List.mem_cons, List.not_mem_nil, or_false] at hx hx'
      rcases hx with rfl | rfl | rfl | rfl | rfl <;> simp at hx' <;> exact hx'
  have h2 : ((qtys P).flatMap (fun q => [Reg.t (.meas q c), .l (.meas q c) (.unav q c)])).Nodup := by
    refine nodup_flatMap_key nodup_qtys ?_ ?_
    · intro ig _; simp
    · intro a b x hx hx'
      simp only [List.mem_cons, List.not_mem_nil, or_false] at hx hx'
      rcases hx with rfl | rfl <;> simp at hx' <;> exact hx'
  have h3 : ((List.range P.maxOrder).flatMap (fun i => [Reg.t (.mall c (i + 1)),
      .l (.mall c (i + 1)) (.tmM (2 * s) (i + 1))])).Nodup := by
    refine nodup_flatMap_key List.nodup_range ?_ ?_
    · intro ig _; simp
    · intro a b x hx hx'
      simp only [List.mem_cons, List.not_mem_nil, or_false] at hx hx'
      rcases hx with rfl | rfl <;> simp at hx' <;> exact hx'
  have h4 : ((qtys P).map (fun q => Reg.r (.unav q c))).Nodup :=
    nodup_qtys.map (fun a b h => by cases h; rfl)
  refine (nodup_tag 15 (nodup_tag 14 (nodup_tag 13 (nodup_tag 12 (nodup_tag 11 (nodup_tag 10
    ⟨h4, ?_⟩ (by simp) ?_) h1 ?_) (by simp) ?_) h2 ?_) (by simp) ?_) h3 ?_).1
  all_goals
    simp only [List.mem_map, List.mem_flatMap, List.mem_cons, List.not_mem_nil, or_false, forall_exists_index,
      and_imp]
  · rintro x q _ rfl; simp [tag, tagR]
  · rintro x rfl; rfl
  · rintro x ig _ (rfl | rfl | rfl | rfl | rfl) <;> rfl
  · rintro x (rfl | rfl) <;> rfl
  · rintro x ig _ (rfl | rfl) <;> rfl
  · rintro x (rfl | rfl | rfl | rfl | rfl | rfl) <;> rfl
  · rintro x ig _ (rfl | rfl) <;> rfl

theorem nodup_fixedRegs : (regs (fixedCalls P)).Nodup ∧ ∀ x ∈ regs (fixedCalls P), tag x < 8 := by
  unfold fixedCalls
  simp only [regs_append, regs_flatMap, regs_map_res]
  have b : ∀ {α} {l : List α} (hl : l.Nodup) (f : α → List Reg) (_ : ∀ a ∈ l, (f a).Nodup)
    (_ : ∀ a b x, x ∈ f a → x ∈ f b → a = b), (l.flatMap f).Nodup := fun hl _ h1 h2 => nodup_flatMap_key hl h1 h2
  refine nodup_tag 7 (nodup_tag 6 (nodup_tag 5 (nodup_tag 4 (nodup_tag 3 (nodup_tag 2 (nodup_tag 1 ⟨?_, ?_⟩
    (b List.nodup_range _ ?_ ?_) ?_) (b nodup_qtys _ ?_ ?_) ?_) (b nodup_qtys _ ?_ ?_) ?_)
    (b List.nodup_range _ ?_ ?_) ?_) (b List.nodup_range _ ?_ ?_) ?_) (List.nodup_range.map ?_) ?_)
    (b List.nodup_range _ ?_ ?_) ?_
  · simp [regs, regOf, List.filterMap_cons]
  · simp [regs, regOf, List.filterMap_cons, tag, tagT, tagR]
  · intro i _; simp [regs, regOf, List.filterMap_cons]
  · intro i j x hx hx'
    simp only [regs, regOf, List.filterMap_cons, List.filterMap_nil, List.mem_cons, List.not_mem_nil,
      or_false] at hx hx'
    rcases hx with rfl | rfl | rfl <;> simpa using hx'
  · intro x hx
    simp only [regs, regOf, List.filterMap_cons, List.filterMap_nil, List.mem_flatMap, List.mem_cons,
      List.not_mem_nil, or_false] at hx
    obtain ⟨_, _, rfl | rfl | rfl⟩ := hx <;> rfl
  · intro i _; simp [regs, regOf, List.filterMap_cons]
  · intro i j x hx hx'
    simp only [regs, regOf, List.filterMap_cons, List.filterMap_nil, List.mem_cons, List.not_mem_nil,
      or_false] at hx hx'
    rcases hx with rfl | rfl | rfl <;> simpa using hx'
  · intro x hx
    simp only [regs, regOf, List.filterMap_cons, List.filterMap_nil, List.mem_flatMap, List.mem_cons,
      List.not_mem_nil, or_false] at hx
    obtain ⟨_, _, rfl | rfl | rfl⟩ := hx <;> rfl
  · intro i _; simp [regs, regOf, List.filterMap_cons]
  · intro i j x hx hx'
    simp only [regs, regOf, List.filterMap_cons, List.filterMap_nil, List.mem_cons, List.not_mem_nil,
      or_false] at hx hx'
    rcases hx with rfl | rfl | rfl <;> simpa using hx'
  · intro x hx
    simp only [regs, regOf, List.filterMap_cons, List.filterMap_nil, List.mem_flatMap, List.mem_cons,
      List.not_mem_nil, or_false] at hx
    obtain ⟨_, _, rfl | rfl | rfl⟩ := hx <;> rfl
  · intro i _; simp [regs, regOf, List.filterMap_cons]
  · intro i j x hx hx'
    simp only [regs, regOf, List.filterMap_cons, List.filterMap_nil, List.mem_cons, List.not_mem_nil,
      or_false] at hx hx'
    rcases hx with rfl | rfl | rfl <;> simpa using hx'
  · intro x hx
    simp only [regs, regOf, List.filterMap_cons, List.filterMap_nil, List.mem_flatMap, List.mem_cons,
      List.not_mem_nil, or_false] at hx
    obtain ⟨_, _, rfl | rfl | rfl⟩ := hx <;> rfl
  · intro is _
    refine b List.nodup_range _ ?_ ?_
    · intro i _; simp [regs, regOf, List.filterMap_cons]
    · intro i j x hx hx'
      simp only [regs, regOf, List.filterMap_cons, List.filterMap_nil, List.mem_cons, List.not_mem_nil,
        or_false] at hx hx'
      rcases hx with rfl | rfl | rfl <;> simpa using hx'
  · intro i j x hx hx'
    simp only [regs, regOf, List.filterMap_cons, List.filterMap_nil, List.mem_cons, List.not_mem_nil,
      or_false, List.mem_flatMap] at hx hx'
    obtain ⟨_, _, rfl | rfl | rfl⟩ := hx <;> obtain ⟨_, _, hx'⟩ := hx' <;> simp at hx' <;> exact hx'.1
  · intro x hx
    simp only [regs, regOf, List.filterMap_cons, List.filterMap_nil, List.mem_flatMap, List.mem_cons,
      List.not_mem_nil, or_false] at hx
    obtain ⟨_, _, _, _, rfl | rfl | rfl⟩ := hx <;> rfl
  · intro a b h; simpa using h
  · simp [tag, tagR]
  · intro i _
    rw [← List.singleton_append, regs_append, regs_map_res]
    simp only [regs, regOf, List.filterMap_cons, List.filterMap_nil, List.singleton_append, List.nodup_cons]
    refine ⟨by simp, List.nodup_range.map fun a b h => by simpa using h⟩
  · intro i j x hx hx'
    rw [← List.singleton_append, regs_append, regs_map_res] at hx hx'
    simp only [regs, regOf, List.filterMap_cons, List.filterMap_nil, List.singleton_append, List.mem_cons,
      List.mem_map] at hx hx'
    rcases hx with rfl | ⟨m, _, rfl⟩
    · simpa using hx'
    · simp at hx'; exact hx'.2.symm
  · intro x hx
    simp only [List.mem_flatMap] at hx
    obtain ⟨i, _, hx⟩ := hx
    rw [← List.singleton_append, regs_append, regs_map_res] at hx
    simp only [regs, regOf, List.filterMap_cons, List.filterMap_nil, List.singleton_append, List.mem_cons,
      List.mem_map] at hx
    rcases hx with rfl | ⟨m, _, rfl⟩ <;> rfl

/-- the parameter values that a registration belongs to -/
def parT : Tk → Option Par
  | .avg _ p => some p
  | t => (cellOf t).map Cell.par

def cellR : Rs → Option Cell
  | .unav _ c | .conv c => some c
  | _ => none

def parR : Rs → Option Par
  | .intvars p | .result _ p => some p
  | r => (cellR r).map Cell.par

def parKey : Reg → Option Par
  | .t t => parT t
  | .r r => parR r
  | .l t _ => parT t

def cellKey : Reg → Option Cell
  | .t t => cellOf t
  | .r r => cellR r
  | .l t _ => cellOf t

theorem cellKey_cell {c : Cell} {s : Nat} {x : Reg} (h : x ∈ cellRegs P c s) : cellKey x = some c := by
  simp only [cellRegs, List.mem_append, List.mem_map, List.mem_flatMap, List.mem_cons, List.not_mem_nil,
    or_false] at h
  rcases h with (((((⟨_, _, rfl⟩ | rfl) | ⟨_, _, rfl | rfl | rfl | rfl | rfl⟩) | (rfl | rfl)) | ⟨_, _, rfl | rfl⟩) |
    (rfl | rfl | rfl | rfl | rfl | rfl)) | ⟨_, _, rfl | rfl⟩ <;> rfl

theorem parKey_of_cellKey {x : Reg} {c : Cell} (h : cellKey x = some c) : parKey x = some c.par := by
  cases x with
  | t t => cases t <;> simp_all [cellKey, parKey, cellOf, parT]
  | r r => cases r <;> simp_all [cellKey, parKey, cellR, parR]
  | l t r => cases t <;> simp_all [cellKey, parKey, cellOf, parT]

theorem tag_of_cellKey {x : Reg} {c : Cell} (h : cellKey x = some c) : 9 ≤ tag x := by
  cases x with
  | t t => cases t <;> simp_all [cellKey, cellOf, tag, tagT]
  | r r => cases r <;> simp_all [cellKey, cellR, tag, tagR]
  | l t r => cases t <;> simp_all [cellKey, cellOf, tag, tagT]

theorem regs_cellsOut (cs : List Cell) : ∀ k, cs.Nodup →
    (regs (cellsOut P k cs)).Nodup ∧ ∀ x ∈ regs (cellsOut P k cs), ∃ c ∈ cs, cellKey x = some c := by
  induction cs with
  | nil => intro k _; simp [cellsOut, regs]
  | cons c cs ih =>
    intro k hn
    rw [List.nodup_cons] at hn
    obtain ⟨h1, h2⟩ := ih (k + 1) hn.2
    simp only [cellsOut, regs_append, regs_cell]
    refine ⟨?_, ?_⟩
    · rw [List.nodup_append]
      refine ⟨nodup_cellRegs _ _, h1, ?_⟩
      rintro a ha b hb rfl
      obtain ⟨c', hc', h3⟩ := h2 a hb
      rw [cellKey_cell ha] at h3
      cases h3
      exact hn.1 hc'
    · intro x hx
      rcases List.mem_append.1 hx with h | h
      · exact ⟨c, by simp, cellKey_cell h⟩
      · obtain ⟨c', hc', h3⟩ := h2 x h
        exact ⟨c', by simp [hc'], h3⟩

theorem regs_head (p : Par) : (regs (headCalls P p)).Nodup ∧
    ∀ x ∈ regs (headCalls P p), tag x = 8 ∧ parKey x = some p := by
  unfold headCalls
  rw [← List.singleton_append, regs_append, regs_flatMap]
  simp only [regs, regOf, List.filterMap_cons, List.filterMap_nil, List.singleton_append]
  refine ⟨?_, ?_⟩
  · rw [List.nodup_cons]
    refine ⟨by simp, nodup_flatMap_key nodup_qtys ?_ ?_⟩
    · intro q _; simp
    · intro a b x hx hx'
      simp only [List.mem_cons, List.not_mem_nil, or_false] at hx hx'
      rcases hx with rfl | rfl | rfl <;> simpa using hx'
  · intro x hx
    simp only [List.mem_cons, List.mem_flatMap, List.not_mem_nil, or_false] at hx
    rcases hx with rfl | ⟨q, _, rfl | rfl | rfl⟩ <;> exact ⟨rfl, rfl⟩

theorem regs_parsOut (ps : List Par) : ∀ k, ps.Nodup →
    (regs (parsOut P k ps)).Nodup ∧ ∀ x ∈ regs (parsOut P k ps), 8 ≤ tag x ∧ ∃ p ∈ ps, parKey x = some p := by
  induction ps with
  | nil => intro k _; simp [parsOut, regs]
  | cons p ps ih =>
    intro k hn
    rw [List.nodup_cons] at hn
    obtain ⟨h1, h2⟩ := ih (k + P.nshape) hn.2
    obtain ⟨h3, h4⟩ := regs_head (P := P) p
    obtain ⟨h5, h6⟩ := regs_cellsOut (P := P) ((List.range P.nshape).map fun ish => (⟨p, ish⟩ : Cell)) k
      (List.nodup_range.map (fun a b h => by cases h; rfl))
    have h6' : ∀ x ∈ regs (cellsOut P k ((List.range P.nshape).map fun ish => (⟨p, ish⟩ : Cell))),
        9 ≤ tag x ∧ parKey x = some p := by
      intro x hx
      obtain ⟨c, hc, h7⟩ := h6 x hx
      obtain ⟨i, _, rfl⟩ := List.mem_map.1 hc
      exact ⟨tag_of_cellKey h7, parKey_of_cellKey h7⟩
    simp only [parsOut, regs_append]
    have hd : ∀ x ∈ regs (headCalls P p) ++ regs (cellsOut P k ((List.range P.nshape).map fun ish => (⟨p, ish⟩ : Cell))),
        8 ≤ tag x ∧ parKey x = some p := by
      intro x hx
      rcases List.mem_append.1 hx with h | h
      · exact ⟨by rw [(h4 x h).1], (h4 x h).2⟩
      · exact ⟨by have := (h6' x h).1; omega, (h6' x h).2⟩
    refine ⟨?_, ?_⟩
    · rw [List.nodup_append]
      refine ⟨?_, h1, ?_⟩
      · rw [List.nodup_append]
        refine ⟨h3, h5, ?_⟩
        rintro a ha b hb rfl
        have := (h4 a ha).1
        have := (h6' a hb).1
        omega
      · rintro a ha b hb rfl
        obtain ⟨p', hp', h7⟩ := (h2 a hb).2
        rw [(hd a ha).2] at h7
        cases h7
        exact hn.1 hp'
    · intro x hx
      rcases List.mem_append.1 hx with h | h
      · exact ⟨(hd x h).1, p, by simp, (hd x h).2⟩
      · obtain ⟨h7, p', hp', h8⟩ := h2 x h
        exact ⟨h7, p', by simp [hp'], h8⟩

theorem generate_eq (hn : 0 < P.nt) {l : List Call} (h : generate P = some l) :
    l = fixedCalls P ++ parsOut P 0 (pars P) := by
  unfold generate at h
  split at h
  · cases h
  · cases h
    rw [loop_calls hn]

theorem nodup_regs (hn : 0 < P.nt) {l : List Call} (h : generate P = some l) : (regs l).Nodup := by
  rw [generate_eq hn h, regs_append, List.nodup_append]
  refine ⟨nodup_fixedRegs.1, (regs_parsOut _ _ nodup_pars).1, ?_⟩
  rintro a ha b hb rfl
  have := nodup_fixedRegs.2 a ha
  have := ((regs_parsOut _ _ nodup_pars).2 a hb).1
  omega

end Verif.Graph
