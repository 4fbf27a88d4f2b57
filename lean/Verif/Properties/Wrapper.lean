import Verif.Model.Wrapper
import Mathlib.Data.List.Nodup
import Mathlib.Data.List.Lookmap
import Mathlib.Tactic.Common
import Mathlib.Data.Nat.Basic

/-!
# C16 (task types), C17 (progress counter)
-/
namespace Verif.Wrapper

structure DInv (d : Dict) : Prop where
  lt : ∀ n k, d.map.lookup n = some k → k < d.next
  inj : ∀ n m k, d.map.lookup n = some k → d.map.lookup m = some k → n = m
  all : ∀ k < d.next, ∃ n, d.map.lookup n = some k

theorem lookup_cons' (n m : String) (k : Nat) (l : List (String × Nat)) :
    ((n, k) :: l).lookup m = if m = n then some k else l.lookup m := by
  rw [List.lookup_cons]
  by_cases h : m = n
  · subst h; simp
  · have : (m == n) = false := by simpa using h
    simp [h, this]

theorem register_spec {d : Dict} (I : DInv d) (n : String) :
    DInv (d.register n).2 ∧ (d.register n).2.map.lookup n = some (d.register n).1 ∧
    (∀ m k, d.map.lookup m = some k → (d.register n).2.map.lookup m = some k) ∧
    (∀ m k, (d.register n).2.map.lookup m = some k → m = n ∨ d.map.lookup m = some k) := by
  unfold Dict.register
  cases h : d.map.lookup n with
  | some k => exact ⟨I, h, fun _ _ h => h, fun _ _ h => .inr h⟩
  | none =>
    refine ⟨⟨?_, ?_, ?_⟩, ?_, ?_, ?_⟩
    · intro m k hm
      dsimp only at hm ⊢
      rw [lookup_cons'] at hm
      split at hm
      · cases hm; omega
      · have := I.lt m k hm; omega
    · intro m m' k hm hm'
      dsimp only at hm hm'
      rw [lookup_cons'] at hm hm'
      split at hm <;> split at hm'
      · simp_all
      · cases hm; have := I.lt _ _ hm'; omega
      · cases hm'; have := I.lt _ _ hm; omega
      · exact I.inj m m' k hm hm'
    · intro k hk
      dsimp only at hk ⊢
      by_cases e : k = d.next
      · exact ⟨n, by rw [lookup_cons', if_pos rfl, e]⟩
      · obtain ⟨m, hm⟩ := I.all k (by omega)
        refine ⟨m, ?_⟩
        rw [lookup_cons', if_neg]
        · exact hm
        · rintro rfl; rw [h] at hm; cases hm
    · dsimp only; rw [lookup_cons', if_pos rfl]
    · intro m k hm
      dsimp only
      rw [lookup_cons', if_neg]
      · exact hm
      · rintro rfl; rw [h] at hm; cases hm
    · intro m k hm
      dsimp only at hm
      rw [lookup_cons'] at hm
      split at hm
      · left; assumption
      · right; exact hm

theorem registerAll_spec (ns : List String) : ∀ d, DInv d →
    DInv (registerAll ns d).2 ∧ (registerAll ns d).1.length = ns.length ∧
    (∀ (i : Nat) n, ns[i]? = some n → ∃ k, (registerAll ns d).1[i]? = some k ∧ (registerAll ns d).2.map.lookup n = some k) ∧
    (∀ m k, d.map.lookup m = some k → (registerAll ns d).2.map.lookup m = some k) ∧
    (∀ m k, (registerAll ns d).2.map.lookup m = some k → m ∈ ns ∨ d.map.lookup m = some k) := by
  induction ns with
  | nil => intro d I; exact ⟨I, rfl, by simp, fun _ _ h => h, fun _ _ h => .inr h⟩
  | cons n ns ih =>
    intro d I
    obtain ⟨I1, h1, h2, h3⟩ := register_spec I n
    obtain ⟨I2, j1, j2, j3, j4⟩ := ih _ I1
    simp only [registerAll]
    refine ⟨I2, by simp [j1], ?_, fun m k hm => j3 m k (h2 m k hm), ?_⟩
    · intro i m hm
      cases i with
      | zero =>
        simp at hm
        subst hm
        exact ⟨(d.register n).1, by simp, j3 _ _ h1⟩
      | succ i =>
        simp at hm
        obtain ⟨k, hk⟩ := j2 i m hm
        exact ⟨k, by simpa using hk⟩
    · intro m k hm
      rcases j4 m k hm with h | h
      · left; simp [h]
      · rcases h3 m k h with h | h
        · left; simp [h]
        · right; exact h

/-- **C16.** For any sequence of registered tasks: two tasks get the same type number if and only if they have the
same type; the dictionary maps exactly the registered types, each to the number its tasks have; and the numbers used
are 0, 1, 2, ... without gaps. -/
theorem c16_type_numbers (types : List String) :
    let r := registerAll types Dict.empty
    r.1.length = types.length ∧
    (∀ (i j : Nat) (hi : i < types.length) (hj : j < types.length),
      r.1[i]? = r.1[j]? ↔ types[i] = types[j]) ∧
    (∀ (i : Nat) n, types[i]? = some n → r.2.map.lookup n = r.1[i]?) ∧
    (∀ n k, r.2.map.lookup n = some k → n ∈ types ∧ k < r.2.next) ∧
    (∀ k < r.2.next, ∃ n, r.2.map.lookup n = some k) := by
  have I0 : DInv Dict.empty := by
    constructor <;> simp [Dict.empty]
  obtain ⟨I, h1, h2, h3, h4⟩ := registerAll_spec types Dict.empty I0
  refine ⟨h1, ?_, ?_, ?_, I.all⟩
  · intro i j hi hj
    obtain ⟨k, hk1, hk2⟩ := h2 i _ (List.getElem?_eq_getElem hi)
    obtain ⟨k', hk1', hk2'⟩ := h2 j _ (List.getElem?_eq_getElem hj)
    rw [hk1, hk1']
    constructor
    · intro h
      cases h
      exact I.inj _ _ _ hk2 hk2'
    · intro h
      rw [h, hk2'] at hk2
      exact hk2.symm
  · intro i n hn
    obtain ⟨k, hk1, hk2⟩ := h2 i n hn
    rw [hk1, hk2]
  · intro n k hk
    refine ⟨?_, I.lt n k hk⟩
    rcases h4 n k hk with h | h
    · exact h
    · simp [Dict.empty] at h

example : (registerAll ["A", "B", "A", "C", "B"] Dict.empty).1 = [0, 1, 0, 2, 1] := by decide

/-! ## C17 -/

/-- **C17 (violated).** With at least one and fewer than 50 tasks the interval is rounded to zero, and the first
finished task divides by zero. -/
theorem c17_violated (total : Nat) (h : total < 50) (th : Nat) :
    Counter.run (outputInterval total) [.inc th, .load th] Counter.init = none := by
  have e : outputInterval total = 0 := by unfold outputInterval; omega
  simp [Counter.run, Counter.act, Counter.init, shouldReport, e]

/-- **C17 (partial).** With 50 tasks or more there is no division by zero, whatever the threads do; every message
shows a multiple of the interval that does not exceed the number of finished tasks.  Missing: fewer than 50 tasks
(`c17_violated`), and that every multiple is reported, which is false for more than one thread
(`c17_message_lost`). -/
theorem c17_counting_partial (total : Nat) (h : 50 ≤ total) (as : List Act) :
    ∃ c, Counter.run (outputInterval total) as Counter.init = some c ∧
      ∀ n ∈ c.printed, outputInterval total ∣ n ∧ n ≤ c.done := by
  have hi : outputInterval total ≠ 0 := by unfold outputInterval; omega
  generalize outputInterval total = iv at hi
  have gen : ∀ (as : List Act) (c : Counter), (∀ n ∈ c.printed, iv ∣ n ∧ n ≤ c.done) →
      ∃ c', Counter.run iv as c = some c' ∧ ∀ n ∈ c'.printed, iv ∣ n ∧ n ≤ c'.done := by
    intro as
    induction as with
    | nil => intro c hc; exact ⟨c, rfl, hc⟩
    | cons a as ih =>
      intro c hc
      cases a with
      | inc th =>
        simp only [Counter.run, Counter.act, Option.bind_some]
        apply ih
        split
        · exact hc
        · intro n hn
          have := hc n hn
          exact ⟨this.1, by dsimp only; omega⟩
      | load th =>
        simp only [Counter.run, Counter.act, shouldReport, if_neg hi]
        split
        · simp only [Option.map_some, Option.bind_some]
          apply ih
          intro n hn
          dsimp only at hn ⊢
          split at hn
          · rename_i hb
            rcases List.mem_cons.1 hn with rfl | hn
            · exact ⟨Nat.dvd_of_mod_eq_zero (by simpa using hb), le_refl _⟩
            · exact hc n hn
          · exact hc n hn
        · exact ih c hc
  exact gen as Counter.init (by simp [Counter.init])

/-- With one thread every multiple of the interval is reported, exactly once and in order. -/
theorem c17_one_thread (total : Nat) (h : 50 ≤ total) (n : Nat) :
    ∃ c, Counter.run (outputInterval total) (List.replicate n [Act.inc 0, Act.load 0]).flatten Counter.init = some c ∧
      c.done = n ∧ c.printed.reverse = (List.range' 1 n).filter fun k => outputInterval total ∣ k := by
  have hi : outputInterval total ≠ 0 := by unfold outputInterval; omega
  generalize outputInterval total = iv at hi
  have gen : ∀ (n : Nat) (c : Counter), c.mid 0 = false →
      ∃ c', Counter.run iv (List.replicate n [Act.inc 0, Act.load 0]).flatten c = some c' ∧
        c'.done = c.done + n ∧
        c'.printed.reverse = c.printed.reverse ++ (List.range' (c.done + 1) n).filter fun k => iv ∣ k := by
    intro n
    induction n with
    | zero => intro c _; exact ⟨c, rfl, rfl, by simp⟩
    | succ n ih =>
      intro c hm
      obtain ⟨c', h1, h2, h3⟩ := ih { c with done := c.done + 1,
                                             mid := Function.update (Function.update c.mid 0 true) 0 false,
                                             printed := if (c.done + 1) % iv == 0 then (c.done + 1) :: c.printed
                                               else c.printed } (by simp)
      refine ⟨c', ?_, ?_, ?_⟩
      · rw [List.replicate_succ, List.flatten_cons]
        simp only [List.cons_append, List.nil_append, Counter.run, Counter.act, hm, shouldReport, if_neg hi]
        simp only [Bool.false_eq_true, if_false, Option.bind_some, Function.update_self, if_true, Option.map_some]
        exact h1
      · rw [h2]; dsimp only; omega
      · rw [h3, List.range'_succ, List.filter_cons]
        dsimp only
        by_cases hd : iv ∣ c.done + 1
        · have : (c.done + 1) % iv = 0 := Nat.mod_eq_zero_of_dvd hd
          simp [hd, this]
        · have : ¬ (c.done + 1) % iv = 0 := fun e => hd (Nat.dvd_of_mod_eq_zero e)
          simp [hd, this]
  obtain ⟨c, h1, h2, h3⟩ := gen n Counter.init rfl
  refine ⟨c, h1, by simpa [Counter.init] using h2, ?_⟩
  rw [h3]; simp [Counter.init]

/-- With two threads a message can be lost and another one printed twice: the counter is incremented and read in two
steps. -/
theorem c17_message_lost :
    (Counter.run (outputInterval 50) [.inc 0, .inc 1, .load 0, .load 1] Counter.init).map Counter.printed
      = some [2, 2] := by
  decide

example : outputInterval 49 = 0 ∧ outputInterval 50 = 1 ∧ outputInterval 1000 = 10 := by decide

end Verif.Wrapper
