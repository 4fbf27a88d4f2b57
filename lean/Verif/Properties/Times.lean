import Verif.Spec.Times
import Verif.Properties.Sched
import Verif.Properties.Liveness
import Mathlib.Order.Interval.Finset.Nat

/-!
# C106: the recorded times and thread numbers
-/
namespace Verif.Times
open Verif Sched Finset

variable {C : Cfg} {x0 x : TSt C}

theorem treach_reach (h : TReach C x0 x) : Reach C x0.s x.s := by
  induction h with
  | refl => exact .refl
  | step th ch dt _ hs ih =>
    simp only [tstep, Option.map_eq_some_iff] at hs
    obtain ⟨s', h1, rfl⟩ := hs
    exact .step th ch ih h1

/-- the step without the times -/
theorem tstep_spec {x x' : TSt C} {th : Fin C.nth} {ch dt : Nat} (h : tstep C x th ch dt = some x') :
    step C x.s th ch = some x'.s ∧ x'.now = x.now + dt ∧ x'.tic = ticOf (x.s.pc th) (x.now + dt) x.tic ∧
    x'.toc = tocOf (x.s.pc th) (x.now + dt) x.toc ∧ x'.began = beganOf (x.s.pc th) (x.now + dt) x.began ∧
    x'.told = toldOf (x.s.pc th) x.s.tqid x.told := by
  simp only [tstep, Option.map_eq_some_iff] at h
  obtain ⟨s', h1, rfl⟩ := h
  exact ⟨h1, rfl, rfl, rfl, rfl, rfl⟩

/-! ## Who holds a task -/

/-- the thread is responsible for task `t`: it has taken the task from its queue and has not finished it -/
def Has (t : Nat) (p : Pc) : Prop := p = .setq t ∨ p = .call t ∨ ∃ id, p = .run t id

variable {s : St C}

/-- tasks in the hands of two threads do not clash -/
theorem has_clash (hC : WfCfg C) (I : Inv C s) {th th' : Fin C.nth} (hne : th ≠ th') {t t' : Nat}
    (h1 : Has t (s.pc th)) (h2 : Has t' (s.pc th')) : ¬ Clash C t t' := by
  have key : ∀ {th th' : Fin C.nth} {t t' r r' : Nat}, Has t (s.pc th) → Has t' (s.pc th') →
      r ∈ C.locks t → r' ∈ C.locks t' → ¬ Ancestor C.parent r r' := by
    intro th th' t t' r r' h1 h2 hl hl' ha
    have p := I.P r th (by
      rcases h1 with h1 | h1 | ⟨id, h1⟩ <;> rw [h1] <;> simp only [passedBy] <;> exact List.count_pos_iff.2 hl)
    have h := I.H r
    have h3 := le_sum (fun i => holdsBy C r (s.pc i)) th'
    have h4 : 0 < holdsBy C r (s.pc th') := by
      rcases h2 with h2 | h2 | ⟨id, h2⟩ <;> rw [h2] <;> simp only [holdsBy] <;>
        exact List.count_pos_iff.2 (mem_hs hl' ((mem_anc hC r r').2 ha))
    omega
  rintro ⟨r, hl, r', hl', (rfl | ha | ha)⟩
  · have h := I.L r
    have h3 := two_le_sum (fun i => lockedBy C r (s.pc i)) th th' hne
    have h4 : 0 < lockedBy C r (s.pc th) := by
      rcases h1 with h1 | h1 | ⟨id, h1⟩ <;> rw [h1] <;> simp only [lockedBy] <;> exact List.count_pos_iff.2 hl
    have h5 : 0 < lockedBy C r (s.pc th') := by
      rcases h2 with h2 | h2 | ⟨id, h2⟩ <;> rw [h2] <;> simp only [lockedBy] <;> exact List.count_pos_iff.2 hl'
    have h6 : ind (s.lock r = true) ≤ 1 := by simp only [ind]; split <;> omega
    omega
  · exact key h1 h2 hl hl' ha
  · exact key h2 h1 hl' hl ha

theorem ind_le (p : Prop) [Decidable p] : ind p ≤ 1 := by simp only [ind]; split <;> omega

theorem starts_le (I : Inv C s) (t : Nat) : s.starts t ≤ 1 := by
  have h1 := I.tok t
  have := ind_le (t < C.count ∧ s.wait t = 0)
  omega

/-- a task that is about to be recorded has not been taken before -/
theorem setq_fresh (I : Inv C s) {th : Fin C.nth} {t : Nat} (hp : s.pc th = .setq t) :
    ¬ Taken s t ∧ s.ends t = 0 := by
  have h1 := I.tok t
  have h2 := I.runs t
  have h3 := le_sum (fun i => pendBy t (s.pc i)) th
  have h4 : pendBy t (s.pc th) = 1 := by simp [hp, pendBy]
  have h5 := ind_le (t < C.count ∧ s.wait t = 0)
  refine ⟨?_, by omega⟩
  rintro (⟨th', hp'⟩ | h)
  · have hne : th ≠ th' := by rintro rfl; rw [hp] at hp'; cases hp'
    have h6 := two_le_sum (fun i => pendBy t (s.pc i)) th th' hne
    have h7 : pendBy t (s.pc th') = 1 := by simp [hp', pendBy]
    omega
  · omega

theorem run_unended (I : Inv C s) {th : Fin C.nth} {t id : Nat} (hp : s.pc th = .run t id) :
    s.ends t = 0 ∧ s.starts t = 1 := by
  have h1 := starts_le I t
  have h2 := I.runs t
  have h3 := le_sum (fun i => runBy t (s.pc i)) th
  have h4 : runBy t (s.pc th) = 1 := by simp [hp, runBy]
  omega

/-- a task that was taken and has not ended is in the hands of a thread -/
theorem taken_has (I : Inv C s) {t : Nat} (h : Taken s t) (he : s.ends t = 0) :
    ∃ th, s.pc th = .call t ∨ ∃ id, s.pc th = .run t id := by
  rcases h with ⟨th, h⟩ | h
  · exact ⟨th, .inl h⟩
  · have h2 := I.runs t
    have h3 : ∑ th, runBy t (s.pc th) ≠ 0 := by omega
    obtain ⟨th, -, hth⟩ := Finset.exists_ne_zero_of_sum_ne_zero h3
    refine ⟨th, .inr ?_⟩
    revert hth
    generalize s.pc th = p
    intro hth
    cases p <;> simp [runBy, ind] at hth
    case run t' id => exact ⟨id, by rw [hth]⟩

theorem ends_one (I : Inv C s) {t : Nat} (h : s.ends t ≠ 0) : s.ends t = 1 := by
  have := starts_le I t
  have := I.runs t
  omega

/-- when a task is taken, the tasks it waits for have ended -/
theorem taken_deps (I : Inv C s) {a b : Nat} (ha : a < C.count) (hab : b ∈ C.unlocks a)
    (hb : Taken s b ∨ ∃ th, s.pc th = .setq b) : s.ends a = 1 := by
  have h1 := I.tok b
  have hpos : 0 < ∑ th, pendBy b (s.pc th) + s.starts b := by
    rcases hb with (⟨th, h⟩ | h) | ⟨th, h⟩
    · have := le_sum (fun i => pendBy b (s.pc i)) th
      have h4 : pendBy b (s.pc th) = 1 := by simp [h, pendBy]
      omega
    · omega
    · have := le_sum (fun i => pendBy b (s.pc i)) th
      have h4 : pendBy b (s.pc th) = 1 := by simp [h, pendBy]
      omega
  have h2 : s.wait b = 0 := by
    by_contra hc
    rw [ind, if_neg (by tauto)] at h1
    omega
  have h3 := I.waits b
  rw [h2] at h3
  have h4 : ∑ a ∈ range C.count, ind (s.ends a = 0) * (C.unlocks a).count b = 0 := by omega
  have h5 := (Finset.sum_eq_zero_iff.1 h4) a (mem_range.2 ha)
  have h6 : 0 < (C.unlocks a).count b := List.count_pos_iff.2 hab
  refine ends_one I fun e => ?_
  simp only [ind, e, if_true, one_mul] at h5
  omega

/-- what one step does to the records: either nothing, or one of the three events -/
theorem event {s1 : St C} {th : Fin C.nth} {ch : Nat} (h : step C s th ch = some s1) :
    (∃ t, s.pc th = .setq t ∧ s1.pc th = .call t ∧ s1.starts = s.starts ∧ s1.ends = s.ends ∧
      s1.tqid = Function.update s.tqid t (qid C th)) ∨
    (∃ t, s.pc th = .call t ∧ s1.pc th = .run t (s.tqid t) ∧ s1.starts = Function.update s.starts t (s.starts t + 1) ∧
      s1.ends = s.ends ∧ s1.tqid = s.tqid) ∨
    (∃ t id, s.pc th = .run t id ∧ s1.pc th = .relNext t (C.locks t) ∧ s1.starts = s.starts ∧
      s1.ends = Function.update s.ends t (s.ends t + 1) ∧ s1.tqid = s.tqid) ∨
    ((∀ t, s.pc th ≠ .setq t) ∧ (∀ t, s.pc th ≠ .call t) ∧ (∀ t id, s.pc th ≠ .run t id) ∧
      (∀ t, s1.pc th ≠ .call t) ∧ (∀ t id, s1.pc th ≠ .run t id) ∧
      s1.starts = s.starts ∧ s1.ends = s.ends ∧ s1.tqid = s.tqid) := by
  simp only [step, Option.map_eq_some_iff] at h
  obtain ⟨⟨s', p'⟩, ha, rfl⟩ := h
  have ha := act_Act ha
  simp only [Function.update_self]
  revert ha
  generalize s.pc th = p
  intro ha
  cases ha
  case setq t => exact .inl ⟨t, rfl, rfl, rfl, rfl, rfl⟩
  case call t => exact .inr (.inl ⟨t, rfl, rfl, rfl, rfl, rfl⟩)
  case run t id => exact .inr (.inr (.inl ⟨t, id, rfl, rfl, rfl, rfl, rfl⟩))
  case relqN c => cases hc : c.cont <;> simp [afterFail]
  all_goals simp

theorem pc_other {s1 : St C} {th th' : Fin C.nth} {ch : Nat} (h : step C s th ch = some s1) (hne : th' ≠ th) :
    s1.pc th' = s.pc th' := by
  simp only [step, Option.map_eq_some_iff] at h
  obtain ⟨⟨s', p'⟩, ha, rfl⟩ := h
  simp [Function.update_of_ne hne]

/-- a task is taken at the step that records it -/
theorem taken_step {s1 : St C} {th : Fin C.nth} {ch : Nat} (h : step C s th ch = some s1) (t : Nat) :
    Taken s1 t ↔ Taken s t ∨ s.pc th = .setq t := by
  have ho := fun th' hne => pc_other (th' := th') h hne
  constructor
  · rintro (⟨th', hp⟩ | hs)
    · by_cases hij : th' = th
      · subst hij
        rcases event h with ⟨t', e1, e2, -⟩ | ⟨t', e1, e2, -⟩ | ⟨t', id, e1, e2, -⟩ | ⟨-, -, -, e, -⟩
        · rw [e2] at hp; cases hp; exact .inr e1
        · rw [e2] at hp; cases hp
        · rw [e2] at hp; cases hp
        · exact absurd hp (e t)
      · rw [ho th' hij] at hp
        exact .inl (.inl ⟨th', hp⟩)
    · rcases event h with ⟨t', e1, e2, e3, -⟩ | ⟨t', e1, e2, e3, -⟩ | ⟨t', id, e1, e2, e3, -⟩ | ⟨-, -, -, -, -, e3, -⟩
      · rw [e3] at hs; exact .inl (.inr hs)
      · by_cases ht : t = t'
        · subst ht; exact .inl (.inl ⟨th, e1⟩)
        · rw [e3, Function.update_of_ne ht] at hs; exact .inl (.inr hs)
      · rw [e3] at hs; exact .inl (.inr hs)
      · rw [e3] at hs; exact .inl (.inr hs)
  · rintro ((⟨th', hp⟩ | hs) | hp)
    · by_cases hij : th' = th
      · subst hij
        rcases event h with ⟨t', e1, -⟩ | ⟨t', e1, e2, e3, -⟩ | ⟨t', id, e1, e2, e3, -⟩ | ⟨-, e, -⟩
        · rw [e1] at hp; cases hp
        · rw [e1] at hp; cases hp
          right; rw [e3]; simp
        · rw [e1] at hp; cases hp
        · exact absurd hp (e t)
      · left; exact ⟨th', by rw [ho th' hij]; exact hp⟩
    · right
      rcases event h with ⟨t', e1, e2, e3, -⟩ | ⟨t', e1, e2, e3, -⟩ | ⟨t', id, e1, e2, e3, -⟩ | ⟨-, -, -, -, -, e3, -⟩
      · rw [e3]; exact hs
      · rw [e3]
        by_cases ht : t = t'
        · subst ht; simp
        · rw [Function.update_of_ne ht]; exact hs
      · rw [e3]; exact hs
      · rw [e3]; exact hs
    · left
      rcases event h with ⟨t', e1, e2, -⟩ | ⟨t', e1, -⟩ | ⟨t', id, e1, -⟩ | ⟨e, -⟩
      · rw [e1] at hp; cases hp; exact ⟨th, e2⟩
      · rw [e1] at hp; cases hp
      · rw [e1] at hp; cases hp
      · exact absurd hp (e t)

/-! ## The invariant -/

structure TInv (x : TSt C) : Prop where
  ticNow : ∀ t, x.tic t ≤ x.now
  tocNow : ∀ t, x.toc t ≤ x.now
  tqid : ∀ th t, (x.s.pc th = .call t ∨ ∃ id, x.s.pc th = .run t id) → x.s.tqid t = qid C th
  told : ∀ t, x.s.starts t ≠ 0 → x.told t = x.s.tqid t
  began : ∀ t, x.s.starts t ≠ 0 → x.tic t ≤ x.began t ∧ x.began t ≤ x.now
  own : ∀ t, x.s.ends t ≠ 0 → x.began t ≤ x.toc t
  deps : ∀ a < C.count, ∀ b ∈ C.unlocks a, Taken x.s b → x.toc a ≤ x.tic b
  clash : ∀ a b, a ≠ b → Taken x.s a → Taken x.s b →
    (Clash C a b ∨ (C.nth ≤ C.nq ∧ x.s.tqid a = x.s.tqid b)) → Before x a b ∨ Before x b a

theorem qid_inj (hle : C.nth ≤ C.nq) {th th' : Fin C.nth} (h : qid C th = qid C th') : th = th' := by
  unfold qid at h
  have := th.2
  have := th'.2
  rw [Nat.mod_eq_of_lt (by omega), Nat.mod_eq_of_lt (by omega)] at h
  exact Fin.ext h

theorem clash_comm {a b : Nat} (h : Clash C a b) : Clash C b a := by
  obtain ⟨r, hr, r', hr', h⟩ := h
  refine ⟨r', hr', r, hr, ?_⟩
  rcases h with h | h | h
  · exact .inl h.symm
  · exact .inr (.inr h)
  · exact .inr (.inl h)

theorem tinv_step (hC : WfCfg C) {x x' : TSt C} {th : Fin C.nth} {ch dt : Nat} (I : Inv C x.s) (T : TInv x)
    (h : tstep C x th ch dt = some x') : TInv x' := by
  obtain ⟨hs, hnow, htic, htoc, hbegan, htold⟩ := tstep_spec h
  have I' := inv_step hC.nq_pos hC.links I hs
  have ho := fun th' hne => pc_other (th' := th') hs hne
  have htk := fun t => taken_step hs t
  rcases event hs with ⟨t, e1, e2, e3, e4, e5⟩ | ⟨t, e1, e2, e3, e4, e5⟩ | ⟨t, id, e1, e2, e3, e4, e5⟩ |
    ⟨f1, f2, f3, f4, f5, e3, e4, e5⟩
  · -- the task is fetched
    have fresh := setq_fresh I e1
    simp only [e1, ticOf, tocOf, beganOf, toldOf] at htic htoc hbegan htold
    have hne : ∀ a, Taken x.s a → a ≠ t := by rintro a ha rfl; exact fresh.1 ha
    have hst : ∀ a, x.s.starts a ≠ 0 → a ≠ t := fun a ha => hne a (.inr ha)
    have ticne : ∀ a, a ≠ t → x'.tic a = x.tic a := fun a ha => by rw [htic, Function.update_of_ne ha]
    have tict : x'.tic t = x.now + dt := by rw [htic, Function.update_self]
    have qne : ∀ a, a ≠ t → x'.s.tqid a = x.s.tqid a := fun a ha => by rw [e5, Function.update_of_ne ha]
    have takes : ∀ a, Taken x'.s a → a = t ∨ Taken x.s a := by
      intro a ha
      rcases (htk a).1 ha with ha | ha
      · exact .inr ha
      · rw [e1] at ha; cases ha; exact .inl rfl
    -- whatever was taken before and gets in the way of `t` has ended
    have over : ∀ a, Taken x.s a → (Clash C a t ∨ (C.nth ≤ C.nq ∧ x.s.tqid a = qid C th)) → Before x' a t := by
      intro a ha hc
      have he : x.s.ends a ≠ 0 := by
        intro he
        obtain ⟨th', hp⟩ := taken_has I ha he
        have hij : th' ≠ th := by
          rintro rfl
          rw [e1] at hp
          rcases hp with hp | ⟨id, hp⟩ <;> cases hp
        rcases hc with hc | ⟨hle, hc⟩
        · exact has_clash hC I hij (t := a) (t' := t) (.inr hp) (.inl e1) hc
        · rw [T.tqid th' a hp] at hc
          exact hij (qid_inj hle hc)
      refine ⟨by rw [e4]; exact ends_one I he, ?_⟩
      rw [htoc, tict]
      have := T.tocNow a
      omega
    refine ⟨?_, ?_, ?_, ?_, ?_, ?_, ?_, ?_⟩
    · intro a
      by_cases ha : a = t
      · subst ha; rw [tict, hnow]
      · rw [ticne a ha, hnow]; have := T.ticNow a; omega
    · intro a; rw [htoc, hnow]; have := T.tocNow a; omega
    · intro th' a hp
      by_cases hij : th' = th
      · subst hij
        rw [e2] at hp
        rcases hp with hp | ⟨id, hp⟩
        · cases hp; rw [e5, Function.update_self]
        · cases hp
      · rw [ho th' hij] at hp
        have ha : a ≠ t := by
          rintro rfl
          rcases hp with hp | ⟨id, hp⟩
          · exact fresh.1 (.inl ⟨th', hp⟩)
          · exact fresh.1 (.inr (by rw [(run_unended I hp).2]; decide))
        rw [qne a ha]
        exact T.tqid th' a hp
    · intro a ha
      rw [e3] at ha
      rw [htold, qne a (hst a ha)]
      exact T.told a ha
    · intro a ha
      rw [e3] at ha
      rw [hbegan, ticne a (hst a ha), hnow]
      have := T.began a ha
      omega
    · intro a ha
      rw [e4] at ha
      rw [hbegan, htoc]
      exact T.own a ha
    · intro a ha b hb hbt
      rw [htoc]
      rcases takes b hbt with rfl | hbt
      · rw [tict]; have := T.tocNow a; omega
      · rw [ticne b (hne b hbt)]; exact T.deps a ha b hb hbt
    · intro a b hab ha hb hc
      rcases takes a ha with rfl | ha <;> rcases takes b hb with rfl | hb
      · exact absurd rfl hab
      · refine .inr (over b hb ?_)
        rcases hc with hc | ⟨hle, hc⟩
        · exact .inl (clash_comm hc)
        · refine .inr ⟨hle, ?_⟩
          rw [qne b (hne b hb)] at hc
          rw [← hc, e5, Function.update_self]
      · refine .inl (over a ha ?_)
        rcases hc with hc | ⟨hle, hc⟩
        · exact .inl hc
        · refine .inr ⟨hle, ?_⟩
          rw [qne a (hne a ha)] at hc
          rw [hc, e5, Function.update_self]
      · rw [qne a (hne a ha), qne b (hne b hb)] at hc
        simp only [Before, e4, htoc, ticne a (hne a ha), ticne b (hne b hb)]
        exact T.clash a b hab ha hb hc
  · -- the user function is called
    simp only [e1, ticOf, tocOf, beganOf, toldOf] at htic htoc hbegan htold
    have hz : x.s.starts t = 0 := by
      have h1 := I.tok t
      have h3 := le_sum (fun i => pendBy t (x.s.pc i)) th
      have h4 : pendBy t (x.s.pc th) = 1 := by simp [e1, pendBy]
      have h5 := ind_le (t < C.count ∧ x.s.wait t = 0)
      omega
    have takes : ∀ a, Taken x'.s a → Taken x.s a := by
      intro a ha
      rcases (htk a).1 ha with ha | ha
      · exact ha
      · rw [e1] at ha; cases ha
    refine ⟨?_, ?_, ?_, ?_, ?_, ?_, ?_, ?_⟩
    · intro a; rw [htic, hnow]; have := T.ticNow a; omega
    · intro a; rw [htoc, hnow]; have := T.tocNow a; omega
    · intro th' a hp
      rw [e5]
      by_cases hij : th' = th
      · subst hij
        rw [e2] at hp
        rcases hp with hp | ⟨id, hp⟩
        · cases hp
        · cases hp; exact T.tqid th' t (.inl e1)
      · rw [ho th' hij] at hp
        exact T.tqid th' a hp
    · intro a ha
      rw [htold, e5]
      by_cases hat : a = t
      · subst hat; rw [Function.update_self]
      · rw [Function.update_of_ne hat]
        rw [e3, Function.update_of_ne hat] at ha
        exact T.told a ha
    · intro a ha
      rw [htic, hbegan, hnow]
      by_cases hat : a = t
      · subst hat; rw [Function.update_self]; have := T.ticNow a; omega
      · rw [Function.update_of_ne hat]
        rw [e3, Function.update_of_ne hat] at ha
        have := T.began a ha
        omega
    · intro a ha
      rw [e4] at ha
      have hat : a ≠ t := by
        rintro rfl
        have := I.runs a
        omega
      rw [hbegan, htoc, Function.update_of_ne hat]
      exact T.own a ha
    · intro a ha b hb hbt
      rw [htoc, htic]
      exact T.deps a ha b hb (takes b hbt)
    · intro a b hab ha hb hc
      simp only [Before, e4, htoc, htic]
      rw [e5] at hc
      exact T.clash a b hab (takes a ha) (takes b hb) hc
  · -- the user function has returned
    simp only [e1, ticOf, tocOf, beganOf, toldOf] at htic htoc hbegan htold
    obtain ⟨hz, hone⟩ := run_unended I e1
    have takes : ∀ a, Taken x'.s a → Taken x.s a := by
      intro a ha
      rcases (htk a).1 ha with ha | ha
      · exact ha
      · rw [e1] at ha; cases ha
    have keep : ∀ a b, Before x a b → Before x' a b := by
      rintro a b ⟨h1, h2⟩
      have hat : a ≠ t := by rintro rfl; omega
      exact ⟨by rw [e4, Function.update_of_ne hat]; exact h1, by rw [htoc, htic, Function.update_of_ne hat]; exact h2⟩
    refine ⟨?_, ?_, ?_, ?_, ?_, ?_, ?_, ?_⟩
    · intro a; rw [htic, hnow]; have := T.ticNow a; omega
    · intro a
      rw [htoc, hnow]
      by_cases hat : a = t
      · subst hat; rw [Function.update_self]
      · rw [Function.update_of_ne hat]; have := T.tocNow a; omega
    · intro th' a hp
      rw [e5]
      by_cases hij : th' = th
      · subst hij
        rw [e2] at hp
        rcases hp with hp | ⟨id, hp⟩ <;> cases hp
      · rw [ho th' hij] at hp
        exact T.tqid th' a hp
    · intro a ha
      rw [e3] at ha
      rw [htold, e5]; exact T.told a ha
    · intro a ha
      rw [e3] at ha
      rw [htic, hbegan, hnow]
      have := T.began a ha
      omega
    · intro a ha
      rw [hbegan, htoc]
      by_cases hat : a = t
      · subst hat; rw [Function.update_self]
        have := T.began a (by omega)
        omega
      · rw [Function.update_of_ne hat]
        rw [e4, Function.update_of_ne hat] at ha
        exact T.own a ha
    · intro a ha b hb hbt
      have h1 := taken_deps I ha hb (.inl (takes b hbt))
      have hat : a ≠ t := by rintro rfl; omega
      rw [htoc, htic, Function.update_of_ne hat]
      exact T.deps a ha b hb (takes b hbt)
    · intro a b hab ha hb hc
      rw [e5] at hc
      rcases T.clash a b hab (takes a ha) (takes b hb) hc with h | h
      · exact .inl (keep _ _ h)
      · exact .inr (keep _ _ h)
  · have q1 : x'.tic = x.tic := by
      rw [htic]; unfold ticOf; split
      · rename_i t ht; exact absurd ht (f1 t)
      · rfl
    have q2 : x'.toc = x.toc := by
      rw [htoc]; unfold tocOf; split
      · rename_i t id ht; exact absurd ht (f3 t id)
      · rfl
    have q3 : x'.began = x.began := by
      rw [hbegan]; unfold beganOf; split
      · rename_i t ht; exact absurd ht (f2 t)
      · rfl
    have q4 : x'.told = x.told := by
      rw [htold]; unfold toldOf; split
      · rename_i t ht; exact absurd ht (f2 t)
      · rfl
    have takes : ∀ a, Taken x'.s a → Taken x.s a := by
      intro a ha
      rcases (htk a).1 ha with ha | ha
      · exact ha
      · exact absurd ha (f1 a)
    refine ⟨?_, ?_, ?_, ?_, ?_, ?_, ?_, ?_⟩
    · intro a; rw [q1, hnow]; have := T.ticNow a; omega
    · intro a; rw [q2, hnow]; have := T.tocNow a; omega
    · intro th' a hp
      rw [e5]
      by_cases hij : th' = th
      · subst hij
        rcases hp with hp | ⟨id, hp⟩
        · exact absurd hp (f4 a)
        · exact absurd hp (f5 a id)
      · rw [ho th' hij] at hp
        exact T.tqid th' a hp
    · intro a ha; rw [e3] at ha; rw [q4, e5]; exact T.told a ha
    · intro a ha; rw [e3] at ha; rw [q1, q3, hnow]; have := T.began a ha; omega
    · intro a ha; rw [e4] at ha; rw [q3, q2]; exact T.own a ha
    · intro a ha b hb hbt; rw [q1, q2]; exact T.deps a ha b hb (takes b hbt)
    · intro a b hab ha hb hc
      rw [e5] at hc
      simp only [Before, e4, q1, q2]
      exact T.clash a b hab (takes a ha) (takes b hb) hc

theorem prepared_tinv (h : TPrepared C x0) : TInv x0 where
  ticNow := h.tic
  tocNow := h.toc
  tqid := by intro th t hp; simp [h.prepared.pc] at hp
  told := by intro t ht; exact absurd (h.prepared.starts t) ht
  began := by intro t ht; exact absurd (h.prepared.starts t) ht
  own := by intro t ht; exact absurd (h.prepared.ends t) ht
  deps := by
    rintro a _ b _ (⟨th, hp⟩ | hp)
    · simp [h.prepared.pc] at hp
    · exact absurd (h.prepared.starts b) hp
  clash := by
    rintro a b _ (⟨th, hp⟩ | hp)
    · simp [h.prepared.pc] at hp
    · exact absurd (h.prepared.starts a) hp

theorem treach_tinv (hC : WfCfg C) (h0 : TPrepared C x0) (hr : TReach C x0 x) : TInv x := by
  induction hr with
  | refl => exact prepared_tinv h0
  | step th ch dt hr1 hs ih => exact tinv_step hC (reach_inv hC h0.prepared (treach_reach hr1)) ih hs

/-- the clock never goes back, and what is recorded is recorded during the run -/
theorem treach_since (hC : WfCfg C) (h0 : TPrepared C x0) (hr : TReach C x0 x) :
    x0.now ≤ x.now ∧ ∀ t, Taken x.s t → x0.now ≤ x.tic t := by
  induction hr with
  | refl =>
    refine ⟨le_refl _, ?_⟩
    rintro a (⟨th, hp⟩ | hp)
    · simp [h0.prepared.pc] at hp
    · exact absurd (h0.prepared.starts a) hp
  | step th ch dt hr1 hs ih =>
    rename_i x1 x2
    obtain ⟨h1, hnow, htic, -⟩ := tstep_spec hs
    refine ⟨by rw [hnow]; omega, fun a ha => ?_⟩
    rw [htic]
    rcases (taken_step h1 a).1 ha with ha | ha
    · generalize x1.s.pc th = p
      cases p <;> simp only [ticOf] <;> try exact ih.2 a ha
      case setq t =>
        by_cases hat : a = t
        · subst hat; rw [Function.update_self]; omega
        · rw [Function.update_of_ne hat]; exact ih.2 a ha
    · rw [ha]; simp only [ticOf, Function.update_self]; omega

/-- **C106 (the recorded interval contains the call).** For every task that has ended, the recorded start, the call of
the user function, the recorded end and the present follow each other in this order, and the start does not precede the
start of the run. -/
theorem c106_interval (hC : WfCfg C) (h0 : TPrepared C x0) (hr : TReach C x0 x) (t : Nat) (he : x.s.ends t ≠ 0) :
    x0.now ≤ x.tic t ∧ x.tic t ≤ x.began t ∧ x.began t ≤ x.toc t ∧ x.toc t ≤ x.now := by
  have T := treach_tinv hC h0 hr
  have I := reach_inv hC h0.prepared (treach_reach hr)
  have hs : x.s.starts t ≠ 0 := by have := I.runs t; omega
  exact ⟨(treach_since hC h0 hr).2 t (.inr hs), (T.began t hs).1, T.own t he, T.tocNow t⟩

/-- **C106 (order).** If task `b` waits for task `a`, the recorded end of `a` does not follow the recorded start of
`b`. -/
theorem c106_order (hC : WfCfg C) (h0 : TPrepared C x0) (hr : TReach C x0 x) (a b : Nat) (ha : a < C.count)
    (hab : b ∈ C.unlocks a) (hb : x.s.starts b ≠ 0) : Before x a b :=
  ⟨taken_deps (reach_inv hC h0.prepared (treach_reach hr)) ha hab (.inl (.inr hb)),
    (treach_tinv hC h0 hr).deps a ha b hab (.inr hb)⟩

/-- **C106 (exclusion).** The recorded intervals of two tasks that need conflicting resources do not overlap. -/
theorem c106_exclusion (hC : WfCfg C) (h0 : TPrepared C x0) (hr : TReach C x0 x) (a b : Nat) (hab : a ≠ b)
    (ha : x.s.starts a ≠ 0) (hb : x.s.starts b ≠ 0) (hc : Clash C a b) : Before x a b ∨ Before x b a :=
  (treach_tinv hC h0 hr).clash a b hab (.inr ha) (.inr hb) (.inl hc)

/-- **C106 (threads).** The recorded thread number is the one the user function was called with, and it is smaller than
the number of queues; with at least as many queues as threads (CosTuuM: one each) the recorded intervals of two tasks with
the same recorded thread number do not overlap. -/
theorem c106_thread (hC : WfCfg C) (h0 : TPrepared C x0) (hr : TReach C x0 x) :
    (∀ t, x.s.starts t ≠ 0 → x.s.tqid t = x.told t) ∧
    (∀ th t id, Runs x.s th t id → x.s.tqid t = th.val % C.nq ∧ x.told t = th.val % C.nq) ∧
    (C.nth ≤ C.nq → ∀ a b, a ≠ b → x.s.starts a ≠ 0 → x.s.starts b ≠ 0 → x.s.tqid a = x.s.tqid b →
      Before x a b ∨ Before x b a) := by
  have T := treach_tinv hC h0 hr
  have I := reach_inv hC h0.prepared (treach_reach hr)
  refine ⟨fun t ht => (T.told t ht).symm, fun th t id hp => ?_, fun hle a b hab ha hb h =>
    T.clash a b hab (.inr ha) (.inr hb) (.inr ⟨hle, h⟩)⟩
  have h1 := T.tqid th t (.inr ⟨id, hp⟩)
  exact ⟨h1, by rw [T.told t (by rw [(run_unended I hp).2]; decide), h1]; rfl⟩

/-- **C106 (busy time).** The recorded durations of the tasks of one thread add up to at most the duration of the run:
no thread is busy for longer than the run lasted. -/
theorem c106_busy (hC : WfCfg C) (h0 : TPrepared C x0) (hr : TReach C x0 x) (hle : C.nth ≤ C.nq) (q : Nat)
    (S : Finset Nat) (hS : ∀ t ∈ S, x.s.ends t ≠ 0 ∧ x.s.tqid t = q) :
    ∑ t ∈ S, (x.toc t - x.tic t) ≤ x.now - x0.now := by
  have I := reach_inv hC h0.prepared (treach_reach hr)
  have hst : ∀ t, x.s.ends t ≠ 0 → x.s.starts t ≠ 0 := fun t ht => by have := I.runs t; omega
  have hd : (S : Set Nat).PairwiseDisjoint fun t => Finset.Ico (x.tic t) (x.toc t) := by
    intro a ha b hb hab
    have h1 := hS a ha
    have h2 := hS b hb
    have h3 := c106_interval hC h0 hr a h1.1
    have h4 := c106_interval hC h0 hr b h2.1
    have := (c106_thread hC h0 hr).2.2 hle a b hab (hst a h1.1) (hst b h2.1) (h1.2.trans h2.2.symm)
    simp only [Function.onFun, Finset.disjoint_left, Finset.mem_Ico]
    rintro y hy hy'
    rcases this with h | h
    · have := h.2; omega
    · have := h.2; omega
  have hsum : ∑ t ∈ S, (x.toc t - x.tic t) = (S.biUnion fun t => Finset.Ico (x.tic t) (x.toc t)).card := by
    rw [Finset.card_biUnion hd]
    exact Finset.sum_congr rfl fun t _ => (Nat.card_Ico _ _).symm
  rw [hsum, ← Nat.card_Ico]
  refine Finset.card_le_card ?_
  intro y hy
  simp only [Finset.mem_biUnion, Finset.mem_Ico] at hy ⊢
  obtain ⟨t, ht, hy⟩ := hy
  have := c106_interval hC h0 hr t (hS t ht).1
  omega

/-- **C106 (critical path).** The recorded durations of the tasks of a chain in which each one waits for the one before
add up to at most the duration of the run: no run is shorter than any chain of its tasks. -/
theorem c106_chain (hC : WfCfg C) (h0 : TPrepared C x0) (hr : TReach C x0 x) (path : List Nat)
    (hp : path.IsChain fun a b => b ∈ C.unlocks a) (hm : ∀ t ∈ path, t < C.count ∧ x.s.ends t ≠ 0) :
    (path.map fun t => x.toc t - x.tic t).sum ≤ x.now - x0.now := by
  have I := reach_inv hC h0.prepared (treach_reach hr)
  have hst : ∀ t, x.s.ends t ≠ 0 → x.s.starts t ≠ 0 := fun t ht => by have := I.runs t; omega
  have key : ∀ l : List Nat, ∀ a, (a :: l).IsChain (fun a b => b ∈ C.unlocks a) →
      (∀ t ∈ a :: l, t < C.count ∧ x.s.ends t ≠ 0) →
      ((a :: l).map fun t => x.toc t - x.tic t).sum ≤ x.now - x.tic a := by
    intro l
    induction l with
    | nil =>
      intro a _ hm
      have := c106_interval hC h0 hr a (hm a (by simp)).2
      simp
      omega
    | cons b l ih =>
      intro a hch hm
      rw [List.isChain_cons_cons] at hch
      have h1 := ih b hch.2 (fun t ht => hm t (by simp [List.mem_cons.1 ht]))
      have h2 := c106_interval hC h0 hr a (hm a (by simp)).2
      have h3 := c106_interval hC h0 hr b (hm b (by simp)).2
      have h4 := (c106_order hC h0 hr a b (hm a (by simp)).1 hch.1 (hst b (hm b (by simp)).2)).2
      rw [List.map_cons, List.sum_cons]
      omega
  cases path with
  | nil => simp
  | cons a l =>
    have h1 := key l a hp hm
    have h2 := c106_interval hC h0 hr a (hm a (by simp)).2
    omega

/-- Every execution of the scheduler is the execution of the timed one, whatever time its steps take. -/
theorem c106_untimed (dur : Nat → Nat) {s0 s : St C} (hr : Reach C s0 s) (x0 : TSt C) (h0 : x0.s = s0) :
    ∃ x, TReach C x0 x ∧ x.s = s := by
  induction hr with
  | refl => exact ⟨x0, .refl, h0⟩
  | step th ch _ hs ih =>
    obtain ⟨x, h1, rfl⟩ := ih
    refine ⟨_, .step th ch (dur x.now) h1 (by rw [tstep, hs]; rfl), rfl⟩

/-! ## Example: the three tasks of `Verif.Properties.Liveness` -/

def exX : TSt exC := ⟨exS, 1000, fun _ => 0, fun _ => 0, fun _ => 0, fun _ => 0⟩

theorem exX_prepared : TPrepared exC exX := ⟨exS_prepared, fun _ => by simp [exX], fun _ => by simp [exX]⟩

/-- A complete run in which all the properties apply: task 2 waits for task 0 and locks the parent of what 0 locks. -/
example : ∃ x, TReach exC exX x ∧ AllExited x.s ∧ (∀ t < 3, x.s.ends t = 1) ∧ Before x 0 2 ∧
    x.toc 0 - x.tic 0 + (x.toc 2 - x.tic 2) ≤ x.now - 1000 := by
  obtain ⟨s, hr, h1, h2⟩ := c01_reaches_end exC_wf exC_noself exC_acyclic (by decide) exS_prepared .refl
  obtain ⟨x, hx, rfl⟩ := c106_untimed (fun n => n % 7 + 1) hr exX rfl
  refine ⟨x, hx, h1, fun t ht => (h2 t ht).2, c106_order exC_wf exX_prepared hx 0 2 (by decide) (by decide) ?_, ?_⟩
  · rw [(h2 2 (by decide)).1]; decide
  · have := c106_chain exC_wf exX_prepared hx [0, 2] (by simp [List.isChain_cons_cons, exC]) (by
      intro t ht
      simp at ht
      rcases ht with rfl | rfl
      · exact ⟨by decide, by rw [(h2 0 (by decide)).2]; decide⟩
      · exact ⟨by decide, by rw [(h2 2 (by decide)).2]; decide⟩)
    simpa [exX] using this

/-- Tasks 0 and 2 of the example clash. -/
example : Clash exC 0 2 := ⟨1, by simp [exC], 0, by simp [exC], .inr (.inr (.single rfl))⟩

end Verif.Times
