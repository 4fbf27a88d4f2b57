import Verif.Spec.Graph
import Mathlib.Tactic.Ring
import Mathlib.Data.Int.ModEq
import Mathlib.Data.List.Nodup

/-!
# Lemmas about the task graph
-/
namespace Verif.Graph

variable {P : Params}

/-! ## The loop in closed form -/

/-- `unlock_tasks[resource_reuse_index]` when the T-matrix number `k` is created -/
def unl (P : Params) (k : Nat) : Option Tk :=
  if P.nt ≤ k then ((cells P)[k - P.nt]?).map .reset3 else none

/-- invariant of the loop: `done` are the T-matrices created so far -/
structure LInv (P : Params) (done : List Cell) (st : LoopSt) : Prop where
  reuse : st.reuse = done.length % P.nt
  unlock : ∀ j < P.nt, st.unlock ((done.length + j) % P.nt) =
    if P.nt ≤ done.length + j then (done[done.length + j - P.nt]?).map .reset3 else none

theorem linv_cell (hn : 0 < P.nt) {done : List Cell} {st : LoopSt} (I : LInv P done st) (c : Cell) :
    LInv P (done ++ [c]) (cellStep P st c) where
  reuse := by simp [cellStep, I.reuse]
  unlock := by
    intro j hj
    simp only [cellStep, List.length_append, List.length_cons, List.length_nil]
    by_cases hl : j + 1 = P.nt
    · have e : (done.length + 1 + j) % P.nt = st.reuse := by
        rw [I.reuse, show done.length + 1 + j = done.length + P.nt by omega, Nat.add_mod_right]
      rw [e, Function.update_self, if_pos (by omega)]
      have e2 : done.length + (0 + 1) + j - P.nt = done.length := by omega
      rw [e2, List.getElem?_append_right (by omega)]
      simp
    · have h1 := I.unlock (j + 1) (by omega)
      have hne : (done.length + (0 + 1) + j) % P.nt ≠ st.reuse := by
        rw [I.reuse]
        intro h
        have h2 : (done.length + (0 + 1) + j) ≡ done.length + 0 [MOD P.nt] := by
          simpa [Nat.ModEq] using h
        have h3 : (1 + j) ≡ 0 [MOD P.nt] := by
          apply Nat.ModEq.add_left_cancel' done.length
          simpa [Nat.add_assoc] using h2
        have h4 := (Nat.modEq_zero_iff_dvd).1 h3
        have := Nat.le_of_dvd (by omega) h4
        omega
      rw [Function.update_of_ne hne]
      rw [show done.length + (0 + 1) + j = done.length + (j + 1) by omega, h1]
      by_cases h5 : P.nt ≤ done.length + (j + 1)
      · rw [if_pos h5, if_pos h5, List.getElem?_append_left (by omega)]
      · rw [if_neg h5, if_neg h5]

/-- what the loop adds for a list of T-matrices whose first one has number `k` -/
def cellsOut (P : Params) (k : Nat) : List Cell → List Call
  | [] => []
  | c :: cs => cellCalls P c (k % P.nt) (unl P k) ++ cellsOut P (k + 1) cs

theorem fold_cells (hn : 0 < P.nt) (cs : List Cell) : ∀ (done : List Cell) (rest : List Cell) (st : LoopSt),
    cells P = done ++ cs ++ rest → LInv P done st →
    LInv P (done ++ cs) (cs.foldl (cellStep P) st) ∧
    (cs.foldl (cellStep P) st).calls = st.calls ++ cellsOut P done.length cs := by
  induction cs with
  | nil => intro done rest st _ I; simpa [cellsOut] using I
  | cons c cs ih =>
    intro done rest st hall I
    obtain ⟨h1, h2⟩ := ih (done ++ [c]) rest (cellStep P st c) (by simpa using hall) (linv_cell hn I c)
    refine ⟨by simpa using h1, ?_⟩
    rw [List.foldl_cons, h2]
    have hu : st.unlock st.reuse = unl P done.length := by
      have := I.unlock 0 hn
      rw [Nat.add_zero, ← I.reuse] at this
      rw [this]
      unfold unl
      split
      · rw [hall, List.append_assoc, List.getElem?_append_left (by omega)]
      · rfl
    show st.calls ++ cellCalls P c st.reuse (st.unlock st.reuse) ++ _ = _
    rw [hu, I.reuse]
    simp [cellsOut]

/-- what the loop adds for a list of parameter values, the first T-matrix of which has number `k` -/
def parsOut (P : Params) (k : Nat) : List Par → List Call
  | [] => []
  | p :: ps => headCalls P p ++ cellsOut P k ((List.range P.nshape).map fun ish => ⟨p, ish⟩)
      ++ parsOut P (k + P.nshape) ps

theorem fold_pars (hn : 0 < P.nt) (ps : List Par) : ∀ (done : List Cell) (st : LoopSt),
    cells P = done ++ ps.flatMap (fun p => (List.range P.nshape).map fun ish => ⟨p, ish⟩) → LInv P done st →
    (ps.foldl (parStep P) st).calls = st.calls ++ parsOut P done.length ps := by
  induction ps with
  | nil => intro done st _ _; simp [parsOut]
  | cons p ps ih =>
    intro done st hall I
    rw [List.foldl_cons]
    obtain ⟨h1, h2⟩ := fold_cells hn ((List.range P.nshape).map fun ish => (⟨p, ish⟩ : Cell)) done
      (ps.flatMap (fun p => (List.range P.nshape).map fun ish => ⟨p, ish⟩))
      { st with calls := st.calls ++ headCalls P p } (by simpa using hall) ⟨I.reuse, I.unlock⟩
    have h3 := ih (done ++ (List.range P.nshape).map fun ish => (⟨p, ish⟩ : Cell)) (parStep P st p)
      (by simpa using hall) h1
    rw [h3]
    unfold parStep
    rw [h2]
    simp [parsOut]

theorem loop_calls (hn : 0 < P.nt) :
    ((pars P).foldl (parStep P) ⟨0, fun _ => none, []⟩).calls = parsOut P 0 (pars P) := by
  have := fold_pars hn (pars P) [] ⟨0, fun _ => none, []⟩ (by simp [cells]) ⟨by simp, by
    intro j hj
    simp only [List.length_nil, Nat.zero_add]
    rw [if_neg (by omega)]⟩
  simpa using this

theorem mem_cellsOut {x : Call} (cs : List Cell) : ∀ k, x ∈ cellsOut P k cs ↔
    ∃ j c, cs[j]? = some c ∧ x ∈ cellCalls P c ((k + j) % P.nt) (unl P (k + j)) := by
  induction cs with
  | nil => intro k; simp [cellsOut]
  | cons c cs ih =>
    intro k
    simp only [cellsOut, List.mem_append, ih]
    constructor
    · rintro (h | ⟨j, c', h1, h2⟩)
      · exact ⟨0, c, by simp, by simpa using h⟩
      · exact ⟨j + 1, c', by simpa using h1, by rw [show k + (j + 1) = k + 1 + j by omega]; exact h2⟩
    · rintro ⟨j, c', h1, h2⟩
      cases j with
      | zero => left; simp at h1; subst h1; simpa using h2
      | succ j => right; exact ⟨j, c', by simpa using h1, by rw [show k + 1 + j = k + (j + 1) by omega]; exact h2⟩

theorem getElem?_flatMap_const {α β} (n : Nat) (hn : 0 < n) (f : α → List β) (hf : ∀ a, (f a).length = n)
    (l : List α) : ∀ j, (l.flatMap f)[j]? = (l[j / n]?).bind fun a => (f a)[j % n]? := by
  induction l with
  | nil => intro j; simp
  | cons a l ih =>
    intro j
    rw [List.flatMap_cons]
    by_cases h : j < n
    · rw [List.getElem?_append_left (by rw [hf]; exact h), Nat.div_eq_of_lt h, Nat.mod_eq_of_lt h]
      simp
    · rw [List.getElem?_append_right (by rw [hf]; omega), hf, ih]
      obtain ⟨i, rfl⟩ : ∃ i, j = i + n := ⟨j - n, by omega⟩
      rw [Nat.add_sub_cancel, Nat.add_div_right _ hn, Nat.add_mod_right]
      simp

theorem mem_parsOut {x : Call} (ps : List Par) : ∀ k, x ∈ parsOut P k ps ↔
    (∃ p ∈ ps, x ∈ headCalls P p) ∨
    ∃ j c, (ps.flatMap fun p => (List.range P.nshape).map fun ish => (⟨p, ish⟩ : Cell))[j]? = some c ∧
      x ∈ cellCalls P c ((k + j) % P.nt) (unl P (k + j)) := by
  induction ps with
  | nil => intro k; simp [parsOut]
  | cons p ps ih =>
    intro k
    simp only [parsOut, List.mem_append, ih, mem_cellsOut, List.flatMap_cons]
    constructor
    · rintro ((h | ⟨j, c, h1, h2⟩) | (⟨p', hp, h⟩ | ⟨j, c, h1, h2⟩))
      · exact .inl ⟨p, by simp, h⟩
      · right
        refine ⟨j, c, ?_, h2⟩
        rw [List.getElem?_append_left (List.getElem?_eq_some_iff.1 h1).1]
        exact h1
      · exact .inl ⟨p', by simp [hp], h⟩
      · right
        refine ⟨P.nshape + j, c, ?_, by rw [← Nat.add_assoc]; exact h2⟩
        rw [List.getElem?_append_right (by simp)]
        simpa using h1
    · rintro (⟨p', hp, h⟩ | ⟨j, c, h1, h2⟩)
      · rcases List.mem_cons.1 hp with rfl | hp
        · exact .inl (.inl h)
        · exact .inr (.inl ⟨p', hp, h⟩)
      · by_cases hj : j < P.nshape
        · left; right
          rw [List.getElem?_append_left (by simpa using hj)] at h1
          exact ⟨j, c, h1, h2⟩
        · right; right
          rw [List.getElem?_append_right (by simpa using hj)] at h1
          refine ⟨j - P.nshape, c, by simpa using h1, ?_⟩
          rw [show k + P.nshape + (j - P.nshape) = k + j by omega]; exact h2

/-! ## Positions -/

theorem nodup_pars : (pars P).Nodup := by
  unfold pars
  rw [List.nodup_flatMap]
  refine ⟨?_, ?_⟩
  · intro ic _
    rw [List.nodup_flatMap]
    refine ⟨?_, ?_⟩
    · intro is _
      exact List.nodup_range.map (fun a b h => by cases h; rfl)
    · refine List.nodup_range.imp ?_
      intro a b hab
      simp only [Function.onFun, List.disjoint_left, List.mem_map]
      rintro x ⟨i, _, rfl⟩ ⟨j, _, h⟩
      cases h; exact hab rfl
  · refine List.nodup_range.imp ?_
    intro a b hab
    simp only [Function.onFun, List.disjoint_left, List.mem_flatMap, List.mem_map]
    rintro x ⟨_, _, i, _, rfl⟩ ⟨_, _, j, _, h⟩
    cases h; exact hab rfl

theorem nodup_cells : (cells P).Nodup := by
  unfold cells
  rw [List.nodup_flatMap]
  refine ⟨?_, ?_⟩
  · intro p _
    exact List.nodup_range.map (fun a b h => by cases h; rfl)
  · refine nodup_pars.imp ?_
    intro a b hab
    simp only [Function.onFun, List.disjoint_left, List.mem_map]
    rintro x ⟨i, _, rfl⟩ ⟨j, _, h⟩
    cases h; exact hab rfl

theorem pos_of_get {k : Nat} {c : Cell} (h : (cells P)[k]? = some c) : pos P c = k := by
  obtain ⟨hk, rfl⟩ := List.getElem?_eq_some_iff.1 h
  exact List.Nodup.idxOf_getElem nodup_cells k hk

theorem get_pos {c : Cell} (h : c ∈ cells P) : (cells P)[pos P c]? = some c := by
  obtain ⟨k, hk, rfl⟩ := List.mem_iff_getElem.1 h
  have := pos_of_get (List.getElem?_eq_getElem hk)
  rw [this]; exact List.getElem?_eq_getElem hk

theorem mem_cells {c : Cell} : c ∈ cells P ↔ c.par ∈ pars P ∧ c.ish < P.nshape := by
  unfold cells
  simp only [List.mem_flatMap, List.mem_map, List.mem_range]
  constructor
  · rintro ⟨p, hp, i, hi, rfl⟩; exact ⟨hp, hi⟩
  · rintro ⟨h1, h2⟩; exact ⟨c.par, h1, c.ish, h2, rfl⟩

/-- all calls, described without the loop variables -/
theorem mem_generate (hn : 0 < P.nt) {l : List Call} (h : generate P = some l) {x : Call} :
    x ∈ l ↔ x ∈ fixedCalls P ∨ (∃ p ∈ pars P, x ∈ headCalls P p) ∨
      ∃ c ∈ cells P, x ∈ cellCalls P c (slot P c) (unl P (pos P c)) := by
  unfold generate at h
  split at h
  · cases h
  cases h
  rw [List.mem_append, loop_calls hn, mem_parsOut]
  refine or_congr_right (or_congr_right ?_)
  constructor
  · rintro ⟨j, c, h1, h2⟩
    have hc : (cells P)[j]? = some c := h1
    have := pos_of_get hc
    refine ⟨c, List.mem_of_getElem? hc, ?_⟩
    unfold slot
    rw [this]
    simpa using h2
  · rintro ⟨c, hc, h2⟩
    unfold slot at h2
    exact ⟨pos P c, c, get_pos hc, by simpa using h2⟩

end Verif.Graph
