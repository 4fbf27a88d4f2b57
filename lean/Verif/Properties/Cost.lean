import Verif.Model.Cost
import Verif.Properties.Prepare
import Verif.Properties.Times

/-!
# C108: priorities as they are stored
-/
namespace Verif.Cost
open Verif Prepare

variable {count : Nat} {unlocks : Nat → List Nat} {cost : Nat → Int} {E : EnqCfg} {wait weight : Nat → Int}

/-- what an `int` can store -/
def Fits (x : Int) : Prop := -2 ^ 31 ≤ x ∧ x < 2 ^ 31

theorem toInt_fits {x : Int} (h : Fits x) : toInt x = x := by
  unfold toInt Fits at *
  omega

theorem toInt_range (x : Int) : Fits (toInt x) := by
  unfold toInt Fits
  omega

/-- the loop that stores is the loop that does not, as long as the results fit -/
theorem backward_exact (unlocks : Nat → List Nat) (cost : Nat → Int) (st : (Nat → Int) × (Nat → Int)) (l : List Nat)
    (hn : l.Nodup) (h : ∀ t ∈ l, Fits ((l.foldl (Prepare.back unlocks cost) st).2 t)) :
    l.foldl (back unlocks cost) st = l.foldl (Prepare.back unlocks cost) st := by
  induction l using List.reverseRecOn with
  | nil => rfl
  | append_singleton l t ih =>
    rw [List.foldl_append, List.foldl_append, List.foldl_cons, List.foldl_cons, List.foldl_nil, List.foldl_nil]
    rw [List.foldl_append, List.foldl_cons, List.foldl_nil] at h
    have hn' : l.Nodup ∧ t ∉ l := by
      rw [List.nodup_append] at hn
      exact ⟨hn.1, fun hm => hn.2.2 t hm t (by simp) rfl⟩
    rw [ih hn'.1 ?_]
    · have ht := h t (by simp)
      unfold back
      unfold Prepare.back at ht ⊢
      dsimp only at ht ⊢
      rw [Function.update_self] at ht
      rw [toInt_fits ht]
    · intro t' ht'
      have h1 := h t' (by simp [ht'])
      have hne : t' ≠ t := by rintro rfl; exact hn'.2 ht'
      unfold Prepare.back at h1
      dsimp only at h1
      rw [Function.update_of_ne hne] at h1
      exact h1

/-- preparing with stored weights is preparing with exact ones if the exact ones fit -/
theorem prepare_exact (hu : ∀ a < count, ∀ u ∈ unlocks a, u < count) (hw : ∀ t, wait t = 0) {r : Ready}
    (h : Prepare.prepare count unlocks cost E wait weight = some r) (hf : ∀ t < count, Fits (r.weight t)) :
    prepare count unlocks cost E wait weight = some r := by
  obtain ⟨hl, -, ho, hwt, hweight, -⟩ := prepare_some hu hw h
  have hperm := (c06_order hu hw h).1
  rw [ho] at hperm
  have hb := backward_exact unlocks cost ((kahn count unlocks (setWaits count unlocks wait)).wait, weight)
    (kahn count unlocks (setWaits count unlocks wait)).tid.reverse
    (List.nodup_reverse.2 (hperm.nodup_iff.2 List.nodup_range)) (by
      intro t ht
      have : (List.foldl (Prepare.back unlocks cost) ((kahn count unlocks (setWaits count unlocks wait)).wait, weight)
        (kahn count unlocks (setWaits count unlocks wait)).tid.reverse).2 = r.weight := by rw [hweight]; rfl
      rw [this]
      exact hf t (List.mem_range.1 (hperm.mem_iff.1 (List.mem_reverse.1 ht))))
  rw [← h]
  unfold prepare Prepare.prepare
  dsimp only
  rw [if_neg (by omega), if_neg (by omega)]
  unfold backward Prepare.backward
  rw [hb]

theorem prepare_none : prepare count unlocks cost E wait weight = none ↔
    Prepare.prepare count unlocks cost E wait weight = none := by
  unfold prepare Prepare.prepare
  dsimp only
  by_cases h : (kahn count unlocks (setWaits count unlocks wait)).tid.length < count
  · rw [if_pos h, if_pos h]
  · rw [if_neg h, if_neg h]; simp

/-- a path visits existing tasks, each of them once -/
theorem path_length (hu : ∀ a < count, ∀ u ∈ unlocks a, u < count) {rank : Nat → Nat}
    (hr : ∀ a < count, ∀ b ∈ unlocks a, rank a < rank b) (p : List Nat) : ∀ t, t < count → PathFrom unlocks t p →
    p.length ≤ count := by
  have key : ∀ (p : List Nat) t, t < count → PathFrom unlocks t p →
      (∀ x ∈ p, x < count) ∧ p.Pairwise (fun a b => rank a < rank b) ∧ p.head? = some t := by
    intro p
    induction p with
    | nil => intro t _ h; exact absurd h (by simp [PathFrom])
    | cons a l ih =>
      intro t ht h
      cases l with
      | nil =>
        have : a = t := h
        subst this
        simp [ht]
      | cons b l =>
        obtain ⟨rfl, hb, hp⟩ := h
        obtain ⟨h1, h2, -⟩ := ih b (hu a ht b hb) hp
        refine ⟨?_, ?_, rfl⟩
        · intro x hx
          rcases List.mem_cons.1 hx with rfl | hx
          · exact ht
          · exact h1 x hx
        · rw [List.pairwise_cons]
          refine ⟨?_, h2⟩
          intro x hx
          have hab := hr a ht b hb
          rcases List.mem_cons.1 hx with rfl | hx
          · exact hab
          · have := (List.pairwise_cons.1 h2).1 x hx
            omega
  intro t ht h
  obtain ⟨h1, h2, -⟩ := key p t ht h
  have hnd : p.Nodup := h2.imp fun hab => by rintro rfl; exact absurd hab (lt_irrefl _)
  have := hnd.subperm (l₂ := List.range count) fun x hx => List.mem_range.2 (h1 x hx)
  simpa using this.length_le

/-- **C108 (stored priorities).** If the costs are not negative and no chain of tasks costs `2^31` or more, the stored
priorities are the exact ones: the largest total cost of a chain that starts with the task. -/
theorem c108_exact (hu : ∀ a < count, ∀ u ∈ unlocks a, u < count) (hw : ∀ t, wait t = 0)
    (hc : ∀ t < count, 0 ≤ cost t) (hp : ∀ t < count, ∀ p, PathFrom unlocks t p → (p.map cost).sum < 2 ^ 31) {r : Ready}
    (h : prepare count unlocks cost E wait weight = some r) :
    Prepare.prepare count unlocks cost E wait weight = some r ∧
    ∀ t < count, (∃ p, PathFrom unlocks t p ∧ (p.map cost).sum = r.weight t) ∧
      (∀ p, PathFrom unlocks t p → (p.map cost).sum ≤ r.weight t) := by
  cases hx : Prepare.prepare count unlocks cost E wait weight with
  | none => rw [prepare_none.2 hx] at h; cases h
  | some r' =>
    have hcp := fun t ht => c07_critical_path hu hw hx t ht
    have he := prepare_exact hu hw hx (by
      intro t ht
      obtain ⟨⟨p, hp1, hp2⟩, hmax⟩ := hcp t ht
      have h1 := hp t ht p hp1
      have h2 := hmax [t] rfl
      have h3 := hc t ht
      simp at h2
      exact ⟨by omega, by omega⟩)
    rw [h] at he
    cases he
    exact ⟨rfl, hcp⟩

/-- **C108 (first run).** With the costs the wrapper gives to its tasks, the stored priority of a task is the number of
tasks on the longest chain that starts with it, for every number of tasks that an `int` can count. -/
theorem c108_first_run (hu : ∀ a < count, ∀ u ∈ unlocks a, u < count) (hw : ∀ t, wait t = 0) (hcount : count < 2 ^ 31)
    (getCost : Nat → Int) {r : Ready}
    (h : prepare count unlocks (fun t => registeredCost (getCost t)) E wait weight = some r) (t : Nat) (ht : t < count) :
    (∃ p, PathFrom unlocks t p ∧ (p.length : Int) = r.weight t) ∧
    (∀ p, PathFrom unlocks t p → (p.length : Int) ≤ r.weight t) := by
  have hsum : ∀ p : List Nat, (p.map fun t => registeredCost (getCost t)).sum = p.length := by
    intro p
    simp [registeredCost]
  obtain ⟨rank, hrank⟩ : ∃ rank : Nat → Nat, ∀ a < count, ∀ b ∈ unlocks a, rank a < rank b := by
    cases hx : Prepare.prepare count unlocks (fun t => registeredCost (getCost t)) E wait weight with
    | none => rw [prepare_none.2 hx] at h; cases h
    | some r' =>
      obtain ⟨-, I, ho, -⟩ := prepare_some hu hw hx
      exact no_cycle_of_order (fun t ht => by
        rw [← ho]; exact (c06_order hu hw hx).1.mem_iff.2 (List.mem_range.2 ht)) hu I.order
  have := (c108_exact hu hw (fun _ _ => by simp [registeredCost]) (fun t ht p hp => by
    rw [hsum]
    have := path_length hu hrank p t ht hp
    omega) h).2 t ht
  simpa only [hsum] using this

/-- **C108 (measured costs).** The cost measured in a run is the recorded duration of the task if that is less than
`2^31` ticks. -/
theorem c108_measured {tic toc : Nat} (h1 : tic ≤ toc) (h2 : toc - tic < 2 ^ 31) : recost tic toc = (toc : Int) - tic := by
  unfold recost ticks toInt
  omega

open Sched Times in
/-- **C108 (second run).** After a run of less than `2^31` ticks, the stored priorities of the next run are the exact
ones, and they belong to the measured durations: no chain of tasks can have cost more than the run took. -/
theorem c108_next_run {C : Cfg} {x0 x : TSt C} (hC : WfCfg C) (h0 : TPrepared C x0) (hr : TReach C x0 x)
    (he : ∃ th, x.s.pc th = .exited) (hd : x.now - x0.now < 2 ^ 31) (hw : ∀ t, wait t = 0) {r : Ready}
    (h : prepare C.count C.unlocks (fun t => recost (x.tic t) (x.toc t)) E wait weight = some r) (t : Nat)
    (ht : t < C.count) :
    (∃ p, PathFrom C.unlocks t p ∧ (p.map fun t => (x.toc t : Int) - x.tic t).sum = r.weight t) ∧
    (∀ p, PathFrom C.unlocks t p → (p.map fun t => (x.toc t : Int) - x.tic t).sum ≤ r.weight t) := by
  have hend : ∀ t < C.count, x.s.ends t = 1 := fun t ht =>
    (c01_exactly_once hC h0.prepared (treach_reach hr) he t ht).2
  have hi : ∀ t < C.count, x.tic t ≤ x.toc t ∧ x.toc t - x.tic t < 2 ^ 31 ∧
      recost (x.tic t) (x.toc t) = (x.toc t : Int) - x.tic t := by
    intro t ht
    have h1 := c106_interval hC h0 hr t (by rw [hend t ht]; decide)
    exact ⟨by omega, by omega, c108_measured (by omega) (by omega)⟩
  have hpath : ∀ (p : List Nat) t, t < C.count → PathFrom C.unlocks t p →
      (∀ x ∈ p, x < C.count) ∧ p.IsChain (fun a b => b ∈ C.unlocks a) := by
    intro p
    induction p with
    | nil => intro t _ h; exact absurd h (by simp [PathFrom])
    | cons a l ih =>
      intro t ht h
      cases l with
      | nil =>
        have : a = t := h
        subst this
        simp [ht]
      | cons b l =>
        obtain ⟨rfl, hb, hp⟩ := h
        obtain ⟨h1, h2⟩ := ih b (hC.links a ht b hb) hp
        refine ⟨?_, by rw [List.isChain_cons_cons]; exact ⟨hb, h2⟩⟩
        intro x hx
        rcases List.mem_cons.1 hx with rfl | hx
        · exact ht
        · exact h1 x hx
  have hsum : ∀ p : List Nat, (∀ x ∈ p, x < C.count) →
      (p.map fun t => recost (x.tic t) (x.toc t)).sum = ((p.map fun t => x.toc t - x.tic t).sum : Nat) ∧
      (p.map fun t => recost (x.tic t) (x.toc t)).sum = (p.map fun t => (x.toc t : Int) - x.tic t).sum := by
    intro p hm
    induction p with
    | nil => simp
    | cons a p ih =>
      obtain ⟨i1, i2⟩ := ih fun y hy => hm y (by simp [hy])
      have h1 := hi a (hm a (by simp))
      simp only [List.map_cons, List.sum_cons]
      constructor
      · rw [i1, h1.2.2]; push_cast; omega
      · rw [i2, h1.2.2]
  have hcost : ∀ t < C.count, 0 ≤ recost (x.tic t) (x.toc t) := by
    intro t ht
    rw [(hi t ht).2.2]
    have := (hi t ht).1
    omega
  have := (c108_exact hC.links hw hcost (fun t ht p hp => by
    obtain ⟨h1, h2⟩ := hpath p t ht hp
    rw [(hsum p h1).1]
    have := c106_chain hC h0 hr p h2 (fun y hy => ⟨h1 y hy, by rw [hend y (h1 y hy)]; decide⟩)
    omega) h).2 t ht
  obtain ⟨⟨p, hp1, hp2⟩, hmax⟩ := this
  refine ⟨⟨p, hp1, ?_⟩, fun p hp => ?_⟩
  · rw [← (hsum p (hpath p t ht hp1).1).2]; exact hp2
  · rw [← (hsum p (hpath p t ht hp).1).2]; exact hmax p hp

/-- **C108 (violation).** A task that takes between `2^31` and `2^32` ticks (a second) is given a negative cost. -/
theorem c108_measured_violation {tic toc : Nat} (h1 : tic + 2 ^ 31 ≤ toc) (h2 : toc < tic + 2 ^ 32) :
    recost tic toc < 0 := by
  unfold recost ticks toInt
  omega

/-- two tasks, the first one unlocks the second, and a third one on its own -/
def exUnlocks : Nat → List Nat := fun t => if t = 0 then [1] else []

/-- **C108 (violation).** Three tasks, the first one unlocks the second; these two took `2^30` ticks each, the third one
1 tick.  The chain is stored with the lowest priority of all. -/
theorem c108_priority_violation (E : EnqCfg) : ∃ r, prepare 3 exUnlocks
      (fun t => if t = 2 then recost 0 1 else recost 0 (2 ^ 30)) E (fun _ => 0) (fun _ => 0) = some r ∧
    r.weight 0 = -2 ^ 31 ∧ r.weight 1 = 2 ^ 30 ∧ r.weight 2 = 1 := by
  have ht : (kahn 3 exUnlocks (setWaits 3 exUnlocks fun _ => 0)).tid = [0, 2, 1] := by decide
  unfold prepare
  dsimp only
  rw [if_neg (by rw [ht]; decide)]
  refine ⟨_, rfl, ?_⟩
  dsimp only
  rw [ht]
  have h30 : recost 0 (2 ^ 30) = 2 ^ 30 := by decide
  have h1 : recost 0 1 = 1 := by decide
  simp only [h30, h1]
  refine ⟨?_, ?_, ?_⟩ <;> simp [backward, back, exUnlocks, Function.update, toInt]

/-- **C108 (violation).** The cost that a task announces has no influence on its priority: of two tasks without links,
the one that announces the higher cost is not preferred, whatever the costs are. -/
theorem c108_announced_violation (E : EnqCfg) (getCost : Nat → Int) : ∃ r,
    prepare 2 (fun _ => []) (fun t => registeredCost (getCost t)) E (fun _ => 0) (fun _ => 0) = some r ∧
    r.weight 0 = r.weight 1 := by
  have ht : (kahn 2 (fun _ => []) (setWaits 2 (fun _ => []) fun _ => 0)).tid = [0, 1] := by decide
  unfold prepare
  dsimp only
  rw [if_neg (by rw [ht]; decide)]
  refine ⟨_, rfl, ?_⟩
  dsimp only
  rw [ht]
  simp [backward, back, Function.update, registeredCost]

/-! ## Examples -/

/-- the hypotheses of `c108_first_run` for a chain of two tasks and a third task -/
example (E : EnqCfg) : ∃ r, prepare 3 exUnlocks (fun _ => registeredCost 7) E (fun _ => 0) (fun _ => 0) = some r ∧
    r.weight 0 = 2 ∧ r.weight 1 = 1 ∧ r.weight 2 = 1 := by
  have ht : (kahn 3 exUnlocks (setWaits 3 exUnlocks fun _ => 0)).tid = [0, 2, 1] := by decide
  unfold prepare
  dsimp only
  rw [if_neg (by rw [ht]; decide)]
  refine ⟨_, rfl, ?_⟩
  dsimp only
  rw [ht]
  refine ⟨?_, ?_, ?_⟩ <;> simp [backward, back, exUnlocks, Function.update, toInt, registeredCost]

example : ∀ a < 3, ∀ u ∈ exUnlocks a, u < 3 := by decide

end Verif.Cost
