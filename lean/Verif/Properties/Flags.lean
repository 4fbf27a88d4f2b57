import Verif.Model.Flags
import Verif.Proofs.Prepare
import Mathlib.Algebra.BigOperators.Ring.Finset
import Mathlib.Tactic.Abel

/-!
# C15: runs with virtual or skipped tasks

The property is violated: a run with a skipped task, or with a virtual task that no (unskipped) task unlocks, never
ends.  The theorems say exactly when: `c15_skip_or_virtual_root_hangs` for these cases,
`c15_flags_partial` for all others.
-/
namespace Verif.Flags
open Verif.Prepare

/-- Number of links from unskipped tasks to `t`. -/
def inLinks (C : Cfg) (t : Nat) : Nat :=
  ∑ a ∈ Finset.range C.count, if C.skip a then 0 else (C.unlocks a).count t

/-- Some task is skipped, or some virtual task has no predecessor that is not skipped. -/
def Bad (C : Cfg) : Prop :=
  ∃ t < C.count, C.skip t = true ∨ (C.virt t = true ∧ inLinks C t = 0)

structure WfCfg (C : Cfg) : Prop where
  links : ∀ a < C.count, ∀ u ∈ C.unlocks a, u < C.count

/-- calls of `qsched_done` for `t`, finished or under way -/
def tok (s : St) (t : Nat) : Nat := s.fin t + (s.frames.map Prod.fst).count t

def rest (fs : List Frame) (u : Nat) : Nat := (fs.map fun f => f.2.count u).sum

def todo (s : St) (t : Nat) : Nat := (s.prep.getD []).count t

structure Inv (C : Cfg) (s : St) : Prop where
  wait : ∀ u, s.wait u = ((∑ a ∈ Finset.range C.count,
    if C.skip a = false ∧ tok s a = 0 then (C.unlocks a).count u else 0) + rest s.frames u : Nat)
  one : ∀ t < C.count, C.skip t = false → tok s t + s.queued.count t + todo s t = if s.wait t = 0 then 1 else 0
  zero : ∀ t, (C.count ≤ t ∨ C.skip t = true) → tok s t = 0 ∧ s.queued.count t = 0
  todoLt : ∀ t, 0 < todo s t → t < C.count
  sub : ∀ f ∈ s.frames, ∀ u ∈ f.2, u ∈ C.unlocks f.1
  noVirt : ∀ t, C.virt t = true → s.queued.count t = 0
  calls : ∀ t, C.virt t = false → s.calls t = tok s t
  /-- during preparation the calls finished come from virtual tasks without predecessors -/
  prepFin : s.prep.isSome = true → ¬ Bad C → s.frames = [] ∧ ∀ t, s.fin t = 0
  runW : s.prep = none → ∃ P : Nat, s.waiting + ∑ t ∈ Finset.range C.count, (s.fin t : Int) = C.count + P ∧
    (¬ Bad C → P = 0) ∧ ((∃ t < C.count, C.skip t = false ∧ C.virt t = true ∧ inLinks C t = 0) → 0 < P)
  prepW : ∀ t < C.count, inLinks C t = 0 → s.wait t = 0

theorem setWaits_apply (C : Cfg) (x : Nat) : setWaits C (fun _ => 0) x = inLinks C x := by
  unfold setWaits inLinks
  induction C.count with
  | zero => simp
  | succ n ih =>
    rw [List.range_succ, List.foldl_append, List.foldl_cons, List.foldl_nil, Finset.sum_range_succ]
    by_cases h : C.skip n
    · simp [h, ih]
    · rw [if_neg h, if_neg h, bump_apply, ih]; push_cast; ring

theorem inv_start (C : Cfg) (w : Int) : Inv C (start C w) where
  wait := by
    intro u
    simp only [start, setWaits_apply, tok, rest]
    unfold inLinks
    simp only [List.map_nil, List.count_nil, List.sum_nil, add_zero]
    congr 1
    apply Finset.sum_congr rfl
    intro a _
    by_cases h : C.skip a <;> simp [h]
  one := by
    intro t ht hs
    change _ = if setWaits C (fun _ => 0) t = 0 then 1 else 0
    simp only [start, tok, todo, Option.getD_some, List.map_nil, List.count_nil, zero_add]
    by_cases h : setWaits C (fun _ => 0) t = 0
    · rw [if_pos h, List.count_eq_one_of_mem (List.nodup_range.filter _) (by simpa using ⟨ht, h⟩)]
    · rw [if_neg h, List.count_eq_zero_of_not_mem (by simp [h])]
  zero := by intro t _; simp [start, tok]
  todoLt := by
    intro t ht
    simp only [start, todo, Option.getD_some] at ht
    have := List.count_pos_iff.1 ht
    simpa using (List.mem_filter.1 this).1
  sub := by simp [start]
  noVirt := by simp [start]
  calls := by simp [start, tok]
  prepFin := by intro _ _; simp [start]
  runW := by intro h; simp [start] at h
  prepW := by intro t _ h; simp [start, setWaits_apply, h]

theorem rest_append (l m : List Frame) (u : Nat) : rest (l ++ m) u = rest l u + rest m u := by
  simp [rest]

theorem rest_cons (f : Frame) (m : List Frame) (u : Nat) : rest (f :: m) u = f.2.count u + rest m u := by
  simp [rest]

/-- the links of a task move from the sum over the tasks to its frame -/
theorem sum_tok {C : Cfg} {s s' : St} {u : Nat} (hu : u < C.count) (hsk : C.skip u = false) (htu : tok s u = 0)
    (ht : ∀ x, tok s' x = tok s x + if u = x then 1 else 0) (x : Nat) :
    (∑ a ∈ Finset.range C.count, if C.skip a = false ∧ tok s a = 0 then (C.unlocks a).count x else 0)
    = (C.unlocks u).count x +
      ∑ a ∈ Finset.range C.count, if C.skip a = false ∧ tok s' a = 0 then (C.unlocks a).count x else 0 := by
  have h1 := Finset.add_sum_erase (Finset.range C.count)
    (fun a => if C.skip a = false ∧ tok s a = 0 then (C.unlocks a).count x else 0) (Finset.mem_range.2 hu)
  have h2 := Finset.add_sum_erase (Finset.range C.count)
    (fun a => if C.skip a = false ∧ tok s' a = 0 then (C.unlocks a).count x else 0) (Finset.mem_range.2 hu)
  have h3 : ∑ a ∈ (Finset.range C.count).erase u,
      (if C.skip a = false ∧ tok s' a = 0 then (C.unlocks a).count x else 0)
      = ∑ a ∈ (Finset.range C.count).erase u, if C.skip a = false ∧ tok s a = 0 then (C.unlocks a).count x else 0 := by
    apply Finset.sum_congr rfl
    intro a ha
    have : ¬ u = a := fun e => (Finset.ne_of_mem_erase ha) e.symm
    rw [ht a, if_neg this]; rfl
  beta_reduce at h1 h2
  rw [if_pos ⟨hsk, htu⟩] at h1
  rw [if_neg (by rw [ht, if_pos rfl]; simp)] at h2
  rw [h3] at h2
  omega

/-- Adding a task that becomes available. `s` is the state with the counters already changed, `u` is the task. -/
theorem inv_enqueue {C : Cfg} (s : St) (u : Nat) (hu : u < C.count) (hsk : C.skip u = false)
    (hw0 : s.wait u = 0) (htok : tok s u + s.queued.count u + todo s u = 0)
    (wait : ∀ x, s.wait x = ((∑ a ∈ Finset.range C.count,
      if C.skip a = false ∧ tok s a = 0 then (C.unlocks a).count x else 0) + rest s.frames x : Nat))
    (one : ∀ t < C.count, t ≠ u → C.skip t = false →
      tok s t + s.queued.count t + todo s t = if s.wait t = 0 then 1 else 0)
    (zero : ∀ t, (C.count ≤ t ∨ C.skip t = true) → tok s t = 0 ∧ s.queued.count t = 0)
    (todoLt : ∀ t, 0 < todo s t → t < C.count)
    (sub : ∀ f ∈ s.frames, ∀ x ∈ f.2, x ∈ C.unlocks f.1)
    (noVirt : ∀ t, C.virt t = true → s.queued.count t = 0)
    (calls : ∀ t, C.virt t = false → s.calls t = tok s t)
    (prepFin : s.prep.isSome = true → ¬ Bad C → (s.frames = [] ∧ ∀ t, s.fin t = 0) ∧ C.virt u = false)
    (runW : s.prep = none → ∃ P : Nat, s.waiting + ∑ t ∈ Finset.range C.count, (s.fin t : Int) = C.count + P ∧
      (¬ Bad C → P = 0) ∧ ((∃ t < C.count, C.skip t = false ∧ C.virt t = true ∧ inLinks C t = 0) → 0 < P))
    (prepW : ∀ t < C.count, inLinks C t = 0 → s.wait t = 0) : Inv C (enqueue C s u) := by
  unfold enqueue
  by_cases hv : C.virt u
  · rw [if_pos hv]
    have ht : ∀ x, tok { s with frames := (u, C.unlocks u) :: s.frames } x = tok s x + if u = x then 1 else 0 := by
      intro x
      simp only [tok, List.map_cons, List.count_cons, beq_iff_eq]; omega
    refine { wait := ?_, one := ?_, zero := ?_, todoLt := todoLt, sub := ?_, noVirt := noVirt, calls := ?_,
             prepFin := ?_, runW := runW, prepW := prepW }
    · intro x
      show s.wait x = _
      rw [wait x, sum_tok hu hsk (by omega) ht x]
      show _ = ((_ + rest ((u, C.unlocks u) :: s.frames) x : Nat) : Int)
      rw [rest_cons]
      push_cast; ring
    · intro t htc hst
      show tok _ t + s.queued.count t + todo s t = if s.wait t = 0 then 1 else 0
      rw [ht]
      by_cases e : t = u
      · subst e; simp [hw0]; omega
      · have : ¬ u = t := fun h => e h.symm
        rw [if_neg this]; exact one t htc e hst
    · intro t h
      show tok _ t = 0 ∧ s.queued.count t = 0
      rw [ht]
      have := zero t h
      have hne : ¬ u = t := by
        rintro rfl
        rcases h with h | h
        · omega
        · rw [hsk] at h; cases h
      rw [if_neg hne]; exact this
    · intro f hf
      rcases List.mem_cons.1 hf with rfl | h
      · intro x hx; exact hx
      · exact sub f h
    · intro t hvt
      rw [ht, if_neg (by rintro rfl; rw [hv] at hvt; cases hvt)]
      exact calls t hvt
    · intro hp hb
      have := (prepFin hp hb).2
      rw [hv] at this; cases this
  · rw [if_neg hv]
    refine { wait := wait, one := ?_, zero := ?_, todoLt := todoLt, sub := sub, noVirt := ?_, calls := calls,
             prepFin := fun hp hb => (prepFin hp hb).1, runW := runW, prepW := prepW }
    · intro t htc hst
      show tok s t + (u :: s.queued).count t + todo s t = if s.wait t = 0 then 1 else 0
      rw [List.count_cons]
      by_cases e : t = u
      · subst e; simp [hw0]; omega
      · have : ¬ u = t := fun h => e h.symm
        have h1 := one t htc e hst
        simp [this] at h1 ⊢; exact h1
    · intro t h
      show tok s t = 0 ∧ (u :: s.queued).count t = 0
      have := zero t h
      have hne : ¬ u = t := by
        rintro rfl
        rcases h with h | h
        · omega
        · rw [hsk] at h; cases h
      rw [List.count_cons]; simp [hne, this]
    · intro t hvt
      show (u :: s.queued).count t = 0
      rw [List.count_cons]
      have : ¬ u = t := by rintro rfl; exact hv hvt
      simp [this, noVirt t hvt]

theorem inv_step {C : Cfg} (hC : WfCfg C) {s s' : St} (I : Inv C s) (h : Step C s s') : Inv C s' := by
  cases h with
  | @look t ts hp =>
    have htodo : ∀ x, todo s x = (if t = x then 1 else 0) + ts.count x := by
      intro x; simp only [todo, hp, Option.getD_some, List.count_cons, beq_iff_eq]; omega
    have htodo' : ∀ x, todo { s with prep := some ts } x = ts.count x := by intro x; simp [todo]
    have htl : t < C.count := I.todoLt t (by rw [htodo]; simp)
    dsimp only
    split
    · rename_i hc
      have hone := I.one t htl hc.2
      rw [htodo, if_pos rfl, if_pos hc.1] at hone
      refine inv_enqueue { s with prep := some ts } t htl hc.2 hc.1 ?_ I.wait ?_ I.zero ?_ I.sub I.noVirt I.calls ?_
        ?_ I.prepW
      · rw [htodo']; show tok s t + s.queued.count t + _ = 0; omega
      · intro x hx hne hs
        have := I.one x hx hs
        rw [htodo, if_neg (fun e => hne e.symm)] at this
        rw [htodo']
        show tok s x + s.queued.count x + _ = _
        rw [← this]; omega
      · intro x hx
        rw [htodo'] at hx
        exact I.todoLt x (by rw [htodo]; omega)
      · intro _ hb
        refine ⟨I.prepFin (by rw [hp]; rfl) hb, ?_⟩
        by_contra hv
        apply hb
        -- a task on the list of ready tasks has no predecessors: its counter is zero and no call was made
        have hv : C.virt t = true := by simpa using hv
        have hf := I.prepFin (by rw [hp]; rfl) hb
        refine ⟨t, htl, .inr ⟨hv, ?_⟩⟩
        have hw := I.wait t
        rw [hc.1] at hw
        have hw : (∑ a ∈ Finset.range C.count,
          if C.skip a = false ∧ tok s a = 0 then (C.unlocks a).count t else 0) + rest s.frames t = 0 := by
          exact_mod_cast hw.symm
        have htk : ∀ a, tok s a = 0 := by intro a; simp [tok, hf.1, hf.2]
        have hz := (Nat.add_eq_zero_iff.1 hw).1
        rw [Finset.sum_eq_zero_iff] at hz
        unfold inLinks
        apply Finset.sum_eq_zero
        intro a ha
        have h0 := hz a ha
        by_cases hsa : C.skip a = true
        · rw [if_pos hsa]
        · rw [if_neg hsa]
          rwa [if_pos ⟨by simpa using hsa, htk a⟩] at h0
      · intro h; cases h
    · rename_i hc
      refine { I with one := ?_, todoLt := ?_, runW := fun h => (by cases h), prepFin := fun _ hb => I.prepFin (by rw [hp]; rfl) hb }
      · intro x hx hs
        have := I.one x hx hs
        rw [htodo] at this
        rw [htodo']
        show tok s x + s.queued.count x + _ = if s.wait x = 0 then 1 else 0
        by_cases e : t = x
        · subst e
          exfalso
          rw [if_pos rfl] at this
          by_cases hw : s.wait t = 0
          · exact hc ⟨hw, hs⟩
          · rw [if_neg hw] at this; omega
        · rw [if_neg e] at this; rw [← this]; omega
      · intro x hx
        rw [htodo'] at hx
        exact I.todoLt x (by rw [htodo]; omega)
  | go hp hf =>
    have htodo : ∀ x, todo s x = 0 := by intro x; simp [todo, hp]
    have htodo' : ∀ x, todo { s with waiting := (C.count : Int), prep := none } x = 0 := by intro x; simp [todo]
    refine { I with one := ?_, todoLt := ?_, runW := ?_, prepFin := fun h => (by cases h) }
    · intro x hx hs
      have := I.one x hx hs
      rw [htodo] at this
      rw [htodo']; exact this
    · intro x hx; rw [htodo'] at hx; omega
    · intro _
      refine ⟨∑ t ∈ Finset.range C.count, s.fin t, ?_, ?_, ?_⟩
      · push_cast; rfl
      · intro hb
        have := (I.prepFin (by rw [hp]; rfl) hb).2
        simp [this]
      · rintro ⟨t, ht, hs, hv, hin⟩
        have h1 := I.one t ht hs
        rw [if_pos (I.prepW t ht hin), htodo, I.noVirt t hv] at h1
        have h2 : s.fin t = 1 := by
          simp only [tok, hf, List.map_nil, List.count_nil] at h1
          omega
        have := Finset.single_le_sum (f := s.fin) (s := Finset.range C.count) (fun i _ => Nat.zero_le _)
          (Finset.mem_range.2 ht)
        omega
  | @run t l l' hp hq =>
    have hcount : ∀ x, s.queued.count x = (l ++ l').count x + if t = x then 1 else 0 := by
      intro x; rw [hq, List.count_append, List.count_append, List.count_cons]; simp only [beq_iff_eq]; omega
    have htq : 0 < s.queued.count t := by rw [hcount]; simp
    have htl : t < C.count := by
      by_contra h; have := (I.zero t (.inl (by omega))).2; omega
    have hsk : C.skip t = false := by
      by_contra h; have := (I.zero t (.inr (by simpa using h))).2; omega
    have hv : C.virt t = false := by
      by_contra h; have := I.noVirt t (by simpa using h); omega
    have hone := I.one t htl hsk
    have htk : tok s t = 0 := by split at hone <;> omega
    set s' : St := { s with queued := l ++ l', frames := (t, C.unlocks t) :: s.frames
                            calls := Function.update s.calls t (s.calls t + 1) } with hs'
    have ht : ∀ x, tok s' x = tok s x + if t = x then 1 else 0 := by
      intro x
      simp only [hs', tok, List.map_cons, List.count_cons, beq_iff_eq]; omega
    refine { wait := ?_, one := ?_, zero := ?_, todoLt := I.todoLt, sub := ?_, noVirt := ?_, calls := ?_,
             prepFin := ?_, runW := I.runW, prepW := I.prepW }
    · intro x
      show s.wait x = _
      rw [I.wait x, sum_tok htl hsk htk ht x]
      show _ = ((_ + rest ((t, C.unlocks t) :: s.frames) x : Nat) : Int)
      rw [rest_cons]
      push_cast; ring
    · intro x hx hsx
      have := I.one x hx hsx
      rw [hcount] at this
      rw [ht]
      show _ + (l ++ l').count x + todo s x = if s.wait x = 0 then 1 else 0
      rw [← this]; omega
    · intro x hx
      have := I.zero x hx
      rw [hcount] at this
      rw [ht]
      show _ ∧ (l ++ l').count x = 0
      omega
    · intro f hf
      rcases List.mem_cons.1 hf with rfl | h
      · intro x hx; exact hx
      · exact I.sub f h
    · intro x hx
      have := I.noVirt x hx
      rw [hcount] at this
      show (l ++ l').count x = 0
      omega
    · intro x hx
      rw [ht]
      show Function.update s.calls t (s.calls t + 1) x = _
      rw [Function.update_apply]
      by_cases e : t = x
      · subst e; simp [I.calls t hx]
      · have : ¬ x = t := fun h => e h.symm
        simp [this, e, I.calls x hx]
    · intro h
      have : s.prep.isSome = true := h
      rw [hp] at this; cases this
  | @unlock t u us l l' hf =>
    have hmem : (t, u :: us) ∈ s.frames := by rw [hf]; simp
    have htk : 0 < tok s t := by
      have : 0 < (s.frames.map Prod.fst).count t := by
        rw [List.count_pos_iff]; exact List.mem_map.2 ⟨_, hmem, rfl⟩
      unfold tok; omega
    have htl : t < C.count := by
      by_contra h; have := (I.zero t (.inl (by omega))).1; omega
    have huu : u ∈ C.unlocks t := I.sub _ hmem u (by simp)
    have hul : u < C.count := hC.links t htl u huu
    set s' : St := { s with frames := l ++ (t, us) :: l', wait := Function.update s.wait u (s.wait u - 1) } with hs'
    have ht : ∀ x, tok s' x = tok s x := by
      intro x
      simp only [hs', tok, hf, List.map_append, List.map_cons]
    have hrest : ∀ x, rest s.frames x = rest s'.frames x + if u = x then 1 else 0 := by
      intro x
      rw [hf]
      show _ = rest (l ++ (t, us) :: l') x + _
      rw [rest_append, rest_append, rest_cons, rest_cons]
      simp only [List.count_cons, beq_iff_eq]; omega
    have hwu := I.wait u
    have hwpos : 1 ≤ s.wait u := by
      have := hrest u
      rw [if_pos rfl] at this
      rw [hwu]; omega
    have hwait' : ∀ x, s'.wait x = ((∑ a ∈ Finset.range C.count,
        if C.skip a = false ∧ tok s' a = 0 then (C.unlocks a).count x else 0) + rest s'.frames x : Nat) := by
      intro x
      have hsum : (∑ a ∈ Finset.range C.count, if C.skip a = false ∧ tok s' a = 0 then (C.unlocks a).count x else 0)
          = ∑ a ∈ Finset.range C.count, if C.skip a = false ∧ tok s a = 0 then (C.unlocks a).count x else 0 :=
        Finset.sum_congr rfl fun a _ => by rw [ht a]
      rw [hsum]
      have hx := I.wait x
      have hr := hrest x
      show Function.update s.wait u (s.wait u - 1) x = _
      rw [Function.update_apply]
      by_cases e : x = u
      · subst e
        rw [if_pos rfl] at hr
        rw [if_pos rfl, hx]; omega
      · have : ¬ u = x := fun h => e h.symm
        rw [if_neg this] at hr
        rw [if_neg e, hx]; omega
    have hprep : ∀ x < C.count, inLinks C x = 0 → s'.wait x = 0 := by
      intro x hx hin
      have := I.prepW x hx hin
      show Function.update s.wait u (s.wait u - 1) x = 0
      rw [Function.update_apply]
      split
      · rename_i e; subst e; omega
      · exact this
    have hsub : ∀ f ∈ s'.frames, ∀ x ∈ f.2, x ∈ C.unlocks f.1 := by
      intro f hfm x hx
      have hfm : f ∈ l ++ (t, us) :: l' := hfm
      rw [List.mem_append, List.mem_cons] at hfm
      rcases hfm with h | rfl | h
      · exact I.sub f (by rw [hf]; simp [h]) x hx
      · exact I.sub _ hmem x (List.mem_cons_of_mem _ hx)
      · exact I.sub f (by rw [hf]; simp [h]) x hx
    have hpf : s.prep.isSome = true → ¬ Bad C → False := by
      intro hp hb
      have := (I.prepFin hp hb).1
      rw [this] at hmem; simp at hmem
    dsimp only
    split
    · rename_i hc
      have hone := I.one u hul hc.2
      rw [if_neg (by omega)] at hone
      refine inv_enqueue s' u hul hc.2 ?_ ?_ hwait' ?_ ?_ I.todoLt hsub I.noVirt ?_ ?_ I.runW hprep
      · show Function.update s.wait u (s.wait u - 1) u = 0
        rw [Function.update_self]; omega
      · rw [ht]; exact hone
      · intro x hx hne hs
        have := I.one x hx hs
        rw [ht]
        show tok s x + s.queued.count x + todo s x = if Function.update s.wait u (s.wait u - 1) x = 0 then 1 else 0
        rw [Function.update_of_ne hne]; exact this
      · intro x hx; rw [ht]; exact I.zero x hx
      · intro x hx; rw [ht]; exact I.calls x hx
      · intro hp hb; exact (hpf hp hb).elim
    · rename_i hc
      refine { wait := hwait', one := ?_, zero := ?_, todoLt := I.todoLt, sub := hsub, noVirt := I.noVirt, calls := ?_,
               prepFin := fun hp hb => (hpf hp hb).elim, runW := I.runW, prepW := hprep }
      · intro x hx hs
        have := I.one x hx hs
        rw [ht]
        show tok s x + s.queued.count x + todo s x = if Function.update s.wait u (s.wait u - 1) x = 0 then 1 else 0
        rw [Function.update_apply]
        by_cases e : x = u
        · subst e
          have hne : s.wait x ≠ 1 := fun h => hc ⟨h, hs⟩
          rw [if_pos rfl, if_neg (by omega)]
          rw [if_neg (by omega)] at this
          exact this
        · rw [if_neg e]; exact this
      · intro x hx; rw [ht]; exact I.zero x hx
      · intro x hx; rw [ht]; exact I.calls x hx
  | @done t l l' hf =>
    have hmem : (t, ([] : List Nat)) ∈ s.frames := by rw [hf]; simp
    have htk : 0 < tok s t := by
      have : 0 < (s.frames.map Prod.fst).count t := by
        rw [List.count_pos_iff]; exact List.mem_map.2 ⟨_, hmem, rfl⟩
      unfold tok; omega
    have htl : t < C.count := by
      by_contra h; have := (I.zero t (.inl (by omega))).1; omega
    set s' : St := { s with frames := l ++ l', waiting := s.waiting - 1
                            fin := Function.update s.fin t (s.fin t + 1) } with hs'
    have ht : ∀ x, tok s' x = tok s x := by
      intro x
      simp only [hs', tok, hf, List.map_append, List.map_cons, List.count_append, List.count_cons, beq_iff_eq,
        Function.update_apply]
      by_cases e : x = t
      · subst e; simp; omega
      · have : ¬ t = x := fun h => e h.symm
        simp [e, this]
    have hrest : ∀ x, rest s.frames x = rest s'.frames x := by
      intro x
      rw [hf]
      show _ = rest (l ++ l') x
      rw [rest_append, rest_append, rest_cons]; simp
    refine { wait := ?_, one := ?_, zero := ?_, todoLt := I.todoLt, sub := ?_, noVirt := I.noVirt, calls := ?_,
             prepFin := ?_, runW := ?_, prepW := I.prepW }
    · intro x
      have hsum : (∑ a ∈ Finset.range C.count, if C.skip a = false ∧ tok s' a = 0 then (C.unlocks a).count x else 0)
          = ∑ a ∈ Finset.range C.count, if C.skip a = false ∧ tok s a = 0 then (C.unlocks a).count x else 0 :=
        Finset.sum_congr rfl fun a _ => by rw [ht a]
      rw [hsum, ← hrest]; exact I.wait x
    · intro x hx hs; rw [ht]; exact I.one x hx hs
    · intro x hx; rw [ht]; exact I.zero x hx
    · intro f hfm
      have hfm : f ∈ l ++ l' := hfm
      apply I.sub f
      rw [hf]
      rw [List.mem_append] at hfm
      rcases hfm with h | h <;> simp [h]
    · intro x hx; rw [ht]; exact I.calls x hx
    · intro hp hb
      have := (I.prepFin hp hb).1
      rw [this] at hmem; simp at hmem
    · intro hp
      obtain ⟨P, h1, h2, h3⟩ := I.runW hp
      refine ⟨P, ?_, h2, h3⟩
      have hsum : ∑ x ∈ Finset.range C.count, (Function.update s.fin t (s.fin t + 1) x : Int)
          = (∑ x ∈ Finset.range C.count, (s.fin x : Int)) + 1 := by
        rw [← Finset.add_sum_erase _ _ (Finset.mem_range.2 htl),
          ← Finset.add_sum_erase (a := t) (Finset.range C.count) (fun x => (s.fin x : Int)) (Finset.mem_range.2 htl)]
        have : ∑ x ∈ (Finset.range C.count).erase t, (Function.update s.fin t (s.fin t + 1) x : Int)
            = ∑ x ∈ (Finset.range C.count).erase t, (s.fin x : Int) := by
          apply Finset.sum_congr rfl
          intro x hx
          rw [Function.update_of_ne (Finset.ne_of_mem_erase hx)]
        rw [this, Function.update_self]
        push_cast; ring
      show s.waiting - 1 + ∑ x ∈ Finset.range C.count, (Function.update s.fin t (s.fin t + 1) x : Int) = _
      rw [hsum, ← h1]; ring

theorem reach_inv {C : Cfg} (hC : WfCfg C) {w : Int} {s : St} (hr : Reach C (start C w) s) : Inv C s := by
  induction hr with
  | refl => exact inv_start C w
  | step _ h ih => exact inv_step hC ih h

/-- **C15 (violated).** If some task is skipped, or some virtual task has no unskipped predecessor, then the number
of waiting tasks stays positive for the whole run, in every execution: no thread ever leaves, although at some point
nothing is left to do. -/
theorem c15_skip_or_virtual_root_hangs {C : Cfg} (hC : WfCfg C) (hb : Bad C) {w : Int} {s : St}
    (hr : Reach C (start C w) s) (hrun : s.prep = none) : 0 < s.waiting := by
  have I := reach_inv hC hr
  obtain ⟨P, h1, -, h3⟩ := I.runW hrun
  have hle : ∀ t ∈ Finset.range C.count, (s.fin t : Int) ≤ if C.skip t then 0 else 1 := by
    intro t ht
    have ht := Finset.mem_range.1 ht
    by_cases hs : C.skip t
    · have := (I.zero t (.inr hs)).1
      unfold tok at this
      rw [if_pos hs]; omega
    · have hs' : C.skip t = false := by simpa using hs
      have := I.one t ht hs'
      unfold tok at this
      rw [if_neg hs]
      split at this <;> omega
  have hle1 : ∀ t ∈ Finset.range C.count, (s.fin t : Int) ≤ 1 := fun t ht => (hle t ht).trans (by split <;> simp)
  have hcard : ∑ _t ∈ Finset.range C.count, (1 : Int) = C.count := by simp
  obtain ⟨t, ht, hcase⟩ := hb
  by_cases hs : C.skip t
  · have hlt : ∑ x ∈ Finset.range C.count, (s.fin x : Int) < ∑ _x ∈ Finset.range C.count, (1 : Int) := by
      apply Finset.sum_lt_sum hle1
      refine ⟨t, Finset.mem_range.2 ht, ?_⟩
      have := hle t (Finset.mem_range.2 ht)
      rw [if_pos hs] at this
      omega
    rw [hcard] at hlt
    omega
  · have hs' : C.skip t = false := by simpa using hs
    have hP : 0 < P := by
      rcases hcase with h | ⟨hv, hin⟩
      · exact absurd h hs
      · exact h3 ⟨t, ht, hs', hv, hin⟩
    have := Finset.sum_le_sum hle1
    rw [hcard] at this
    omega

/-- **C15 (partial).** If no task is skipped and every virtual task has a predecessor, then the run ends correctly:
when nothing is queued and no call is under way, no task is waiting, every ordinary task was executed exactly once and no
virtual task was executed; as long as something is waiting, some thread has something to do.  Missing: the cases of
`c15_skip_or_virtual_root_hangs`, where the property is false. -/
theorem c15_flags_partial {C : Cfg} (hC : WfCfg C) (hb : ¬ Bad C) {w : Int} {s : St}
    (hac : ∃ rank : Nat → Nat, ∀ a < C.count, ∀ b ∈ C.unlocks a, rank a < rank b)
    (hr : Reach C (start C w) s) (hrun : s.prep = none) :
    (s.queued = [] ∧ s.frames = [] ↔ s.waiting = 0) ∧
    (s.waiting = 0 → ∀ t < C.count, s.fin t = 1 ∧ (C.virt t = false → s.calls t = 1)) := by
  have I := reach_inv hC hr
  obtain ⟨P, h1, h2, -⟩ := I.runW hrun
  have hP := h2 hb
  subst hP
  have hskip : ∀ t < C.count, C.skip t = false := by
    intro t ht
    by_contra h
    exact hb ⟨t, ht, .inl (by simpa using h)⟩
  have htodo : ∀ t, todo s t = 0 := by intro t; simp [todo, hrun]
  have hle1 : ∀ t < C.count, tok s t ≤ 1 := by
    intro t ht
    have := I.one t ht (hskip t ht)
    split at this <;> omega
  have hfin : s.waiting = 0 → ∀ t < C.count, s.fin t = 1 := by
    intro hw t ht
    by_contra hne
    have hlt : ∑ x ∈ Finset.range C.count, (s.fin x : Int) < ∑ _x ∈ Finset.range C.count, (1 : Int) := by
      apply Finset.sum_lt_sum
      · intro x hx
        have := hle1 x (Finset.mem_range.1 hx)
        unfold tok at this; omega
      · refine ⟨t, Finset.mem_range.2 ht, ?_⟩
        have := hle1 t ht
        unfold tok at this; omega
    simp at hlt
    omega
  refine ⟨⟨?_, ?_⟩, ?_⟩
  · rintro ⟨hq, hf⟩
    -- all tasks are finished, by induction along the links
    obtain ⟨rank, hrank⟩ := hac
    have htok : ∀ t, tok s t = s.fin t := by intro t; simp [tok, hf]
    have hall : ∀ n, ∀ t < C.count, rank t = n → s.fin t = 1 := by
      intro n
      induction n using Nat.strong_induction_on with
      | _ n ih =>
        intro t ht hn
        have hwt := I.wait t
        have hz : (∑ a ∈ Finset.range C.count, if C.skip a = false ∧ tok s a = 0 then (C.unlocks a).count t else 0)
            + rest s.frames t = 0 := by
          rw [hf]
          simp only [rest, List.map_nil, List.sum_nil, add_zero]
          apply Finset.sum_eq_zero
          intro a ha
          have ha := Finset.mem_range.1 ha
          by_cases hm : t ∈ C.unlocks a
          · have := ih (rank a) (by have := hrank a ha t hm; omega) a ha rfl
            rw [htok, this]; simp
          · rw [List.count_eq_zero_of_not_mem hm]; simp
        rw [hz] at hwt
        have := I.one t ht (hskip t ht)
        rw [hwt, hq, htodo, htok] at this
        simpa using this
    have hsum : ∑ x ∈ Finset.range C.count, (s.fin x : Int) = C.count := by
      rw [Finset.sum_congr rfl (g := fun _ => (1 : Int))]
      · simp
      · intro x hx
        rw [hall _ x (Finset.mem_range.1 hx) rfl]; rfl
    rw [hsum] at h1
    simpa using h1
  · intro hw
    have hf := hfin hw
    have hz : ∀ t, s.queued.count t = 0 ∧ (s.frames.map Prod.fst).count t = 0 := by
      intro t
      by_cases ht : t < C.count
      · have h3 := hf t ht
        have h4 := I.one t ht (hskip t ht)
        unfold tok at h4
        split at h4 <;> omega
      · have := I.zero t (.inl (by omega))
        unfold tok at this
        omega
    refine ⟨List.eq_nil_iff_forall_not_mem.2 fun t hm => ?_, ?_⟩
    · have := List.count_pos_iff.2 hm
      have := (hz t).1; omega
    · by_contra hne
      obtain ⟨f, hfm⟩ := List.exists_mem_of_ne_nil _ hne
      have : 0 < (s.frames.map Prod.fst).count f.1 := List.count_pos_iff.2 (List.mem_map.2 ⟨f, hfm, rfl⟩)
      have := (hz f.1).2; omega
  · intro hw t ht
    have hf := hfin hw t ht
    refine ⟨hf, fun hv => ?_⟩
    rw [I.calls t hv]
    have := hle1 t ht
    unfold tok at this ⊢
    omega

/-! ## Concrete cases -/

/-- one virtual task: nothing is left to do and one task is waiting -/
def exVirt : Cfg where
  count := 1
  unlocks := fun _ => []
  virt := fun _ => true
  skip := fun _ => false

example : ∃ s, Reach exVirt (start exVirt 0) s ∧ s.prep = none ∧ s.queued = [] ∧ s.frames = [] ∧ s.waiting = 1 := by
  have e : (start exVirt 0).prep = some [0] := by decide
  have e2 : (start exVirt 0).wait 0 = 0 := by decide
  refine ⟨_, .step (.step (.step .refl (.look (t := 0) (ts := []) e)) (.done (t := 0) (l := []) (l' := []) ?_))
    (.go ?_ ?_), ?_, ?_, ?_, ?_⟩
  all_goals first | rfl | decide

example : Bad exVirt := ⟨0, by decide, .inr ⟨rfl, by decide⟩⟩

/-- an ordinary task that unlocks a virtual one, which unlocks an ordinary one: a good configuration -/
def exGood : Cfg where
  count := 3
  unlocks := fun t => if t = 0 then [1] else if t = 1 then [2] else []
  virt := fun t => t = 1
  skip := fun _ => false

example : ¬ Bad exGood ∧ WfCfg exGood ∧ ∃ rank : Nat → Nat, ∀ a < exGood.count, ∀ b ∈ exGood.unlocks a, rank a < rank b := by
  refine ⟨?_, ⟨?_⟩, id, ?_⟩
  · rintro ⟨t, ht, h | ⟨h1, h2⟩⟩
    · simp [exGood] at h
    · have : t = 1 := by simpa [exGood] using h1
      subst this
      revert h2; decide
  · intro a ha u hu
    simp only [exGood] at hu ⊢
    split at hu
    · simp at hu; omega
    · split at hu <;> simp at hu; omega
  · intro a ha u hu
    simp only [exGood] at hu
    show a < u
    split at hu
    · simp at hu; omega
    · split at hu <;> simp at hu; omega

end Verif.Flags
