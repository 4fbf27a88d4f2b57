import Verif.Proofs.LifetimeCalls

/-!
# C102: objects live as long as they are used
-/
namespace Verif.Lifetime

set_option autoImplicit false

open Finset

variable {V : Type}

/-- the effect of an action of the Python program, which loses the references `L` -/
structure After (s : State V) (op : Op V) (s' : State V) (E L : Nat → Nat) : Prop where
  counted : Counted s' fun p => E p + L p
  typed : Typed s'
  names : s'.names = s.names
  next : s.next ≤ s'.next
  same : ∀ p < s.next, (∀ v refs, op ≠ .init p v refs) → ∀ n', s'.node p = some n' → ∃ n, s.node p = some n ∧ n'.kind = n.kind ∧ n'.refs = n.refs
  tidy : (∀ o, L o = 0) ↔ Tidy s op

theorem after_keep {s s' : State V} {E L : Nat → Nat} {op : Op V} (ht : Typed s) (h : Keep s s' fun p => E p + L p) (htidy : (∀ o, L o = 0) ↔ Tidy s op) : After s op s' E L :=
  ⟨h.counted, h.typed ht, h.names, h.ext.1, fun p hp _ => h.ext.2 p hp, htidy⟩

theorem after_hold {s s' : State V} {E L : Nat → Nat} {op : Op V} {r : Nat} (ht : Typed s) (h : Keep s s' fun p => E p + L p + one r p) (htidy : (∀ o, L o = 0) ↔ Tidy s op) :
    After s op (hold r s') E L :=
  ⟨hold_spec h.counted, h.typed ht, h.names, h.ext.1, fun p hp _ => h.ext.2 p hp, htidy⟩

theorem lost_iff {L : Nat → Nat} {P : Prop} (hp : ¬ P) {o : Nat} (ho : 0 < L o) : (∀ o, L o = 0) ↔ P :=
  ⟨fun h => absurd (h o) (by omega), fun h => absurd h hp⟩

theorem zero_iff {P : Prop} (hp : P) : (∀ _ : Nat, (0 : Nat) = 0) ↔ P := ⟨fun _ => hp, fun _ _ => rfl⟩

/-- a class is called -/
theorem create_spec {s : State V} {E : Nat → Nat} (hc : Counted s E) (ht : Typed s) (v : V) {refs : List Nat} (hr : ∀ r ∈ refs, Held s r) :
    ∃ s', init s.next v refs (alloc s).1 = some s' ∧ Counted s' (fun p => E p + one s.next p) ∧ Typed s' ∧ s'.names = s.names ∧ s'.held = s.held ∧ s'.next = s.next + 2
      ∧ (∀ p < s.next, ∀ n', s'.node p = some n' → ∃ n, s.node p = some n ∧ n'.kind = n.kind ∧ n'.refs = n.refs)
      ∧ (∃ k, s'.node s.next = some k ∧ k.kind = .wrapper ∧ k.refs = [s.next + 1]) ∧ ∃ m, s'.node (s.next + 1) = some m ∧ m.kind = .cpp v ∧ m.refs = refs := by
  obtain ⟨k1, -, n1, m1⟩ := make_spec (E := E) .wrapper [] (hc.congr fun p => by simp) fun _ => rfl
  obtain ⟨s2, e2, c2, n2, h2, na2, t2, x2, y2, z2⟩ := init_spec k1.counted m1 rfl v (refs := refs) fun r hr' => by
    refine k1.counted.alive ?_
    rw [k1.held]
    have : 0 < s.held r := hr r hr'
    omega
  refine ⟨s2, e2, c2.congr fun p => by simp, t2 (k1.typed ht), na2.trans k1.names, h2.trans k1.held, by rw [n2, n1], fun p hp n' hn' => ?_, ?_, ?_⟩
  · obtain ⟨a, a1, a2, a3⟩ := x2 p (by omega) (by omega) n' hn'
    obtain ⟨b, b1, b2, b3⟩ := k1.ext.2 p hp a a1
    exact ⟨b, b1, a2.trans b2, a3.trans b3⟩
  · rw [n1] at y2
    exact y2
  · rw [n1] at z2
    exact z2

/-- every legal action is defined; what it loses -/
theorem step_spec {s : State V} {E : Nat → Nat} (hc : Counted s E) (ht : Typed s) {op : Op V} (hl : Legal s op) : ∃ s' L, step op s = some s' ∧ After s op s' E L := by
  cases op with
  | object =>
    obtain ⟨k, i, -, -⟩ := make_spec (E := E) .other [] (hc.congr fun p => by simp) (by intro h; cases h)
    refine ⟨hold (make .other [] s).2 (make .other [] s).1, fun _ => 0, rfl, ?_⟩
    rw [i]
    exact after_hold ht (k.congr fun p => by omega) (zero_iff trivial)
  | take o =>
    obtain ⟨s1, e1, k1, -⟩ := incref_spec hc (o := o) (hc.alive (by have : 0 < s.held o := hl; omega))
    exact ⟨hold o s1, fun _ => 0, by change (incref o s).map _ = _; rw [e1]; rfl, after_hold ht (k1.congr fun p => by omega) (zero_iff trivial)⟩
  | drop o =>
    obtain ⟨s1, e1, k1, -⟩ := decref_spec (unhold_spec hc hl)
    exact ⟨s1, fun _ => 0, by unfold step; exact e1, k1.counted.congr fun p => by omega, k1.typed ht, k1.names, k1.ext.1, fun p hp _ => k1.ext.2 p hp, zero_iff trivial⟩
  | alloc =>
    obtain ⟨k, i, -, -⟩ := make_spec (E := E) .wrapper [] (hc.congr fun p => by simp) fun _ => rfl
    refine ⟨hold (make .wrapper [] s).2 (make .wrapper [] s).1, fun _ => 0, rfl, ?_⟩
    rw [i]
    exact after_hold ht (k.congr fun p => by omega) (zero_iff trivial)
  | create v refs =>
    obtain ⟨s1, e1, c1, t1, na1, -, n1, x1, -, -⟩ := create_spec hc ht v hl
    refine ⟨hold s.next s1, fun _ => 0, ?_, hold_spec (c1.congr fun p => by omega), t1, na1, by change _ ≤ s1.next; omega, fun p hp _ => x1 p hp, zero_iff trivial⟩
    unfold step
    change (init s.next v refs (alloc s).1).bind _ = _
    rw [e1]
    rfl
  | createMatrix v w =>
    obtain ⟨s1, e1, c1, t1, na1, h1, n1, x1, ⟨k1, y1, y2, y3⟩, -⟩ := create_spec hc ht v (refs := []) (by simp)
    cases w with
    | none =>
      refine ⟨hold s.next s1, fun _ => 0, ?_, hold_spec (c1.congr fun p => by omega), t1, na1, by change _ ≤ s1.next; omega, fun p hp _ => x1 p hp, zero_iff rfl⟩
      unfold step initMatrix
      change ((init s.next v [] (alloc s).1).bind _).bind _ = _
      rw [e1]
      rfl
    | some w =>
      obtain ⟨s2, e2, c2, n2, h2, na2, t2, x2, -, -⟩ := init_spec c1 y1 y2 w (refs := []) (by simp)
      refine ⟨hold s.next s2, one (s.next + 1), ?_, hold_spec (c2.congr fun p => ?_), t2 t1, na2.trans na1, by change _ ≤ s2.next; omega, fun p hp _ n' hn' => ?_,
        lost_iff (by intro h; cases h) (o := s.next + 1) (by rw [one_self]; omega)⟩
      · unfold step initMatrix
        change ((init s.next v [] (alloc s).1).bind _).bind _ = _
        rw [e1]
        change (init s.next w [] s1).bind _ = _
        rw [e2]
        rfl
      · rw [y3, count_one]
        omega
      · obtain ⟨a, a1, a2, a3⟩ := x2 p (by omega) (by omega) n' hn'
        obtain ⟨b, b1, b2, b3⟩ := x1 p hp a a1
        exact ⟨b, b1, a2.trans b2, a3.trans b3⟩
  | createWrong =>
    obtain ⟨k, i, -, -⟩ := make_spec (E := E) .wrapper [] (hc.congr fun p => by simp) fun _ => rfl
    obtain ⟨s1, e1, k1, -⟩ := decref_spec k.counted
    exact ⟨s1, fun _ => 0, e1, after_keep ht ((k.trans k1).congr fun p => by omega) (zero_iff trivial)⟩
  | init o v refs =>
    obtain ⟨⟨-, n, h2, h3⟩, hr⟩ := hl
    obtain ⟨s1, e1, c1, n1, h1, na1, t1, x1, -, -⟩ := init_spec hc h2 h3 v (refs := refs) fun r hr' => hc.alive (by have : 0 < s.held r := hr r hr'; omega)
    refine ⟨s1, fun p => n.refs.count p, e1, c1, t1 ht, na1, by omega, fun p hp hne => x1 p hp fun e => hne v refs (by rw [e]), ?_⟩
    constructor
    · intro h m hm
      rw [h2] at hm
      cases hm
      cases hr : n.refs with
      | nil => rfl
      | cons a l =>
        have := h a
        rw [hr] at this
        simp at this
    · intro h p
      rw [h n h2]
      rfl
  | initWrong o => exact ⟨s, fun _ => 0, rfl, after_keep ht ((Keep.refl hc).congr fun p => by omega) (zero_iff trivial)⟩
  | use o =>
    obtain ⟨v, hv⟩ := value_ready hc ht hl
    exact ⟨s, fun _ => 0, by change (valueOf o s).map _ = _; rw [hv]; rfl, after_keep ht ((Keep.refl hc).congr fun p => by omega) (zero_iff trivial)⟩
  | align f os =>
    obtain ⟨vs, hvs⟩ := values_ready hc ht os hl
    obtain ⟨s1, e1, c1, t1, na1, -, n1, x1, -, -⟩ := create_spec hc ht (f vs) (refs := []) (by simp)
    refine ⟨hold s.next s1, fun _ => 0, ?_, hold_spec (c1.congr fun p => by omega), t1, na1, by change _ ≤ s1.next; omega, fun p hp _ => x1 p hp, zero_iff trivial⟩
    change (os.mapM fun o => valueOf o s).bind _ = _
    rw [hvs]
    change (init s.next (f vs) [] (alloc s).1).bind _ = _
    rw [e1]
    rfl
  | absorption o a d =>
    obtain ⟨ho, ha⟩ := hl
    obtain ⟨s1, t, e1, k1⟩ := convert_spec hc ha
    obtain ⟨r1, r2, r3⟩ := reshape_spec d k1.counted
    have fin : ∀ {s2 : State V} {L : Nat → Nat} {t' : Nat}, Keep s s2 (fun p => E p + L p + one t' p) →
        ∃ s', (match (some t' : Option Nat) with
          | none => some s2
          | some t => do
            let _ ← valueOf o (make .array [] s2).1
            let s ← decref t (make .array [] s2).1
            some (hold (make .array [] s2).2 s)) = some s' ∧ ∀ _ : (∀ o, L o = 0) ↔ Tidy s (.absorption o a d), After s (.absorption o a d) s' E L := by
      intro s2 L t' k
      obtain ⟨k2, i2, -, -⟩ := make_spec (E := fun p => E p + L p + one t' p) .array [] (k.counted.congr fun p => by simp) (by intro h; cases h)
      obtain ⟨v, hv⟩ := value_ready k2.counted (k2.typed (k.typed ht)) ((k.trans k2).ready hc ho)
      obtain ⟨s3, e3, k3, -⟩ := decref_spec (s := (make .array [] s2).1) (E := fun p => E p + L p + one s2.next p) (o := t') (k2.counted.congr fun p => by omega)
      refine ⟨hold s2.next s3, ?_, fun h => after_hold ht ((k.trans k2).trans k3) h⟩
      dsimp only
      rw [hv]
      change (decref t' _).bind _ = _
      rw [e3]
      rfl
    have hstep : step (.absorption o a d) s = (reshape t d s1).bind fun q => (match q.2 with
          | none => some q.1
          | some t => do
            let _ ← valueOf o (make .array [] q.1).1
            let s ← decref t (make .array [] q.1).1
            some (hold (make .array [] q.1).2 s)) := by
      change (convert a s).bind _ = _
      rw [e1]
      rfl
    rw [hstep]
    rcases Nat.lt_trichotomy d 1 with h | h | h
    · obtain ⟨s2, r, e2, k2⟩ := r3 (by omega)
      obtain ⟨s', f1, f2⟩ := fin (s2 := s2) (L := one t) (t' := r) (k1.trans k2)
      rw [e2]
      exact ⟨s', one t, f1, f2 (lost_iff (show ¬ d = 1 by omega) (o := t) (by rw [one_self]; omega))⟩
    · obtain ⟨s', f1, f2⟩ := fin (s2 := s1) (L := fun _ => 0) (t' := t) k1
      rw [r2 h]
      exact ⟨s', fun _ => 0, f1, f2 (zero_iff (show d = 1 from h))⟩
    · rw [r1 h]
      exact ⟨s1, one t, rfl, after_keep ht k1 (lost_iff (show ¬ d = 1 by omega) (o := t) (by rw [one_self]; omega))⟩
  | absorptions o a d b =>
    obtain ⟨ho, ha⟩ := hl
    obtain ⟨s1, t, e1, k1⟩ := convert_spec hc ha
    obtain ⟨r1, r2, r3⟩ := reshape_spec d k1.counted
    have fin : ∀ {s2 : State V} {L : Nat → Nat} {t' : Nat}, Keep s s2 (fun p => E p + L p + one t' p) →
        ∃ s' L', (match (some t' : Option Nat) with
          | none => some s2
          | some t => do
            let _ ← valueOf o s2
            let s ← decref t s2
            let (s, r) ← result b s
            some (hold r s)) = some s' ∧ After s (.absorptions o a d b) s' E L' := by
      intro s2 L t' k
      obtain ⟨v, hv⟩ := value_ready k.counted (k.typed ht) (k.ready hc ho)
      obtain ⟨s3, e3, k3, -⟩ := decref_spec k.counted
      obtain ⟨s4, r, q, e4, k4⟩ := result_spec b k3.counted
      refine ⟨hold r s4, fun p => L p + one q p, ?_, after_hold ht (((k.trans k3).trans k4).congr fun p => ?_) (lost_iff id (o := q) ?_)⟩
      · dsimp only
        rw [hv]
        change (decref t' _).bind _ = _
        rw [e3]
        change (result b s3).bind _ = _
        rw [e4]
        rfl
      · omega
      · try dsimp only
        rw [one_self]
        omega
    have hstep : step (.absorptions o a d b) s = (reshape t d s1).bind fun q => (match q.2 with
          | none => some q.1
          | some t => do
            let _ ← valueOf o q.1
            let s ← decref t q.1
            let (s, r) ← result b s
            some (hold r s)) := by
      change (convert a s).bind _ = _
      rw [e1]
      rfl
    rw [hstep]
    rcases Nat.lt_trichotomy d 1 with h | h | h
    · obtain ⟨s2, r, e2, k2⟩ := r3 (by omega)
      rw [e2]
      exact fin (s2 := s2) (L := one t) (t' := r) (k1.trans k2)
    · rw [r2 h]
      exact fin (s2 := s1) (L := fun _ => 0) (t' := t) k1
    · rw [r1 h]
      exact ⟨s1, one t, rfl, after_keep ht k1 (lost_iff id (o := t) (by rw [one_self]; omega))⟩
  | extinction o a b' d d' b =>
    obtain ⟨ho, ha, hb⟩ := hl
    obtain ⟨s1, t, e1, k1⟩ := convert_spec hc ha
    obtain ⟨s2, u, e2, k2⟩ := convert_spec k1.counted (k1.given hc hb)
    have k12 := k1.trans k2
    have fin : ∀ {s2 : State V} {L : Nat → Nat} {t' u' : Nat}, Keep s s2 (fun p => E p + L p + one t' p + one u' p) →
        ∃ s' L', (match (some u' : Option Nat) with
          | none => some s2
          | some u => do
            let _ ← valueOf o s2
            let s ← decref t' s2
            let s ← decref u s
            let (s, r) ← result b s
            some (hold r s)) = some s' ∧ After s (.extinction o a b' d d' b) s' E L' := by
      intro s2 L t' u' k
      obtain ⟨v, hv⟩ := value_ready k.counted (k.typed ht) (k.ready hc ho)
      obtain ⟨s3, e3, k3, -⟩ := decref_spec (s := s2) (E := fun p => E p + L p + one u' p) (o := t') (k.counted.congr fun p => by omega)
      obtain ⟨s3', e3', k3', -⟩ := decref_spec k3.counted
      obtain ⟨s4, r, q, e4, k4⟩ := result_spec b k3'.counted
      refine ⟨hold r s4, fun p => L p + one q p, ?_, after_hold ht ((((k.trans k3).trans k3').trans k4).congr fun p => ?_) (lost_iff id (o := q) ?_)⟩
      · dsimp only
        rw [hv]
        change (decref t' _).bind _ = _
        rw [e3]
        change (decref u' _).bind _ = _
        rw [e3']
        change (result b s3').bind _ = _
        rw [e4]
        rfl
      · omega
      · try dsimp only
        rw [one_self]
        omega
    let rest : Nat → State V × Option Nat → Option (State V) := fun t q => (match q.2 with
          | none => some q.1
          | some u => do
            let _ ← valueOf o q.1
            let s ← decref t q.1
            let s ← decref u s
            let (s, r) ← result b s
            some (hold r s))
    have mid : ∀ {s2 : State V} {L : Nat → Nat} {t' : Nat}, Keep s s2 (fun p => E p + L p + one t' p + one u p) →
        ∃ s' L', (reshape u d' s2).bind (rest t') = some s' ∧ After s (.extinction o a b' d d' b) s' E L' := by
      intro s2 L t' k
      obtain ⟨r1, r2, r3⟩ := reshape_spec d' k.counted
      rcases Nat.lt_trichotomy d' 1 with h | h | h
      · obtain ⟨s3, r, e3, k3⟩ := r3 (by omega)
        rw [e3]
        exact fin (s2 := s3) (L := fun p => L p + one u p) (t' := t') (u' := r) ((k.trans k3).congr fun p => by omega)
      · rw [r2 h]
        exact fin k
      · rw [r1 h]
        refine ⟨s2, fun p => L p + one t' p + one u p, rfl, after_keep ht (k.congr fun p => by omega) (lost_iff id (o := u) ?_)⟩
        try dsimp only
        rw [one_self]
        omega
    have hstep : step (.extinction o a b' d d' b) s = (reshape t d s2).bind fun q => (match q.2 with
          | none => some q.1
          | some t => (reshape u d' q.1).bind (rest t)) := by
      change (convert a s).bind _ = _
      rw [e1]
      change ((convert b' s1).bind _) = _
      rw [e2]
      rfl
    rw [hstep]
    obtain ⟨r1, r2, r3⟩ := reshape_spec (s := s2) (E := fun p => E p + one u p) (t := t) d (k12.counted.congr fun p => by omega)
    rcases Nat.lt_trichotomy d 1 with h | h | h
    · obtain ⟨s3, r, e3, k3⟩ := r3 (by omega)
      rw [e3]
      exact mid (s2 := s3) (L := one t) (t' := r) ((k12.trans k3).congr fun p => by omega)
    · rw [r2 h]
      exact mid (s2 := s2) (L := fun _ => 0) (t' := t) k12
    · rw [r1 h]
      refine ⟨s2, fun p => one t p + one u p, rfl, after_keep ht (k12.congr fun p => by omega) (lost_iff id (o := u) ?_)⟩
      try dsimp only
      rw [one_self]
      omega
  | unpacking o as ds b =>
    obtain ⟨ho, ha, hd⟩ := hl
    obtain ⟨s1, ts, e1, k1, l1⟩ := converts_spec as hc ha
    obtain ⟨s2, L, e2, k2, -, -⟩ := unpacks_spec ts ds (by omega) k1.counted
    have k12 := k1.trans k2
    obtain ⟨v, hv⟩ := value_ready k12.counted (k12.typed ht) (k12.ready hc ho)
    obtain ⟨s4, r, q, e4, k4⟩ := result_spec b k12.counted
    refine ⟨hold r s4, fun p => L p + one q p, ?_, after_hold ht ((k12.trans k4).congr fun p => ?_) (lost_iff id (o := q) ?_)⟩
    · change (converts as s).bind _ = _
      rw [e1]
      change (unpacks ts ds s1).bind _ = _
      rw [e2]
      change (valueOf o s2).bind _ = _
      rw [hv]
      change (result b s2).bind _ = _
      rw [e4]
      rfl
    · omega
    · try dsimp only
      rw [one_self]
      omega
  | table os as ds x y =>
    obtain ⟨ho, ha, hd⟩ := hl
    obtain ⟨s1, ts, e1, k1, l1⟩ := converts_spec as hc ha
    obtain ⟨vs, hvs⟩ := values_ready k1.counted (k1.typed ht) os fun o h => k1.ready hc (ho o h)
    obtain ⟨s2, L, e2, k2, z2, p2⟩ := unpacks_spec ts ds (by omega) k1.counted
    have k12 := k1.trans k2
    have single : ∀ b, (x = some b ∧ y = none) ∨ (x = none ∧ y = some b) → ∃ s' L', ((result b s2).bind fun q => some (hold q.2 q.1)) = some s' ∧ After s (.table os as ds x y) s' E L' := by
      intro b hb
      obtain ⟨s4, r, q, e4, k4⟩ := result_spec b k12.counted
      refine ⟨hold r s4, fun p => L p + one q p, by rw [e4]; rfl, after_hold ht ((k12.trans k4).congr fun p => ?_) (lost_iff ?_ (o := q) ?_)⟩
      · omega
      · rintro ⟨h1, h2, -⟩
        rcases hb with ⟨rfl, -⟩ | ⟨-, rfl⟩
        · cases h1
        · cases h2
      · try dsimp only
        rw [one_self]
        omega
    have hpre : ∀ (r : Option (State V)), (∀ (f : State V → Option (State V)), f s2 = r → ((converts as s).bind fun q => (os.mapM fun o => valueOf o q.1).bind fun _ => (unpacks q.2 ds q.1).bind f) = r) := by
      intro r f hf
      rw [e1]
      change (os.mapM fun o => valueOf o s1).bind _ = _
      rw [hvs]
      change (unpacks ts ds s1).bind _ = _
      rw [e2]
      exact hf
    cases x with
    | none =>
      cases y with
      | none =>
        refine ⟨s2, L, ?_, after_keep ht k12 ⟨fun h => ⟨rfl, rfl, ?_⟩, fun h => z2 h.2.2⟩⟩
        · unfold step
          exact hpre _ _ rfl
        · by_contra hn
          obtain ⟨p, hp⟩ := p2 hn
          have := h p
          omega
      | some b =>
        obtain ⟨s', L', f1, f2⟩ := single b (Or.inr ⟨rfl, rfl⟩)
        exact ⟨s', L', by unfold step; exact hpre _ _ f1, f2⟩
    | some b =>
      cases y with
      | none =>
        obtain ⟨s', L', f1, f2⟩ := single b (Or.inl ⟨rfl, rfl⟩)
        exact ⟨s', L', by unfold step; exact hpre _ _ f1, f2⟩
      | some b' =>
        obtain ⟨s3, r, q, e3, k3⟩ := result_spec b k12.counted
        obtain ⟨s4, r', q', e4, k4⟩ := result_spec b' k3.counted
        obtain ⟨s5, e5, k5, n5, -⟩ := increfs_spec [r, r'] k4.counted (by
          intro o ho
          refine k4.counted.alive ?_
          rcases List.mem_cons.1 ho with rfl | ho
          · rw [one_self]
            omega
          · obtain rfl := List.mem_singleton.1 ho
            rw [one_self]
            omega)
        obtain ⟨k6, i6, -, -⟩ := make_spec .other [r, r'] k5.counted (by intro h; cases h)
        refine ⟨hold s5.next (make .other [r, r'] s5).1, fun p => L p + one r p + one q p + one r' p + one q' p, ?_,
          after_hold ht (((((k12.trans k3).trans k4).trans k5).trans k6).congr fun p => ?_) (lost_iff ?_ (o := q) ?_)⟩
        · unfold step
          refine hpre _ _ ?_
          change (result b s2).bind _ = _
          rw [e3]
          change (result b' s3).bind _ = _
          rw [e4]
          change (increfs [r, r'] s4).bind _ = _
          rw [e5]
          rfl
        · omega
        · rintro ⟨h, -⟩
          cases h
        · try dsimp only
          rw [one_self]
          omega
  | wrongCall as =>
    obtain ⟨s1, ts, e1, k1, l1⟩ := converts_spec as hc hl
    refine ⟨s1, fun p => ts.count p, by change (converts as s).bind _ = _; rw [e1]; rfl, after_keep ht k1 ⟨fun h => ?_, fun h p => ?_⟩⟩
    · cases ts with
      | nil => exact List.length_eq_zero_iff.1 l1.symm
      | cons t ts =>
        have := h t
        simp at this
    · have h : as = [] := h
      subst h
      rw [List.length_eq_zero_iff.1 l1]
      rfl
  | className k => exact hl.elim

/-- a legal history -/
theorem run_spec : ∀ (ops : List (Op V)) {s : State V} {E : Nat → Nat}, Counted s E → Typed s → LegalRun s ops →
    ∃ (s' : State V) (L : Nat → Nat), run ops s = some s' ∧ Counted s' (fun p => E p + L p) ∧ Typed s' ∧ s'.names = s.names ∧ s.next ≤ s'.next
      ∧ (∀ p < s.next, (∀ v refs, Op.init p v refs ∉ ops) → ∀ n', s'.node p = some n' → ∃ n, s.node p = some n ∧ n'.kind = n.kind ∧ n'.refs = n.refs)
      ∧ ∀ p < s.next, s.node p = none → s'.node p = none := by
  intro ops
  induction ops with
  | nil =>
    intro s E hc ht _
    exact ⟨s, fun _ => 0, rfl, hc.congr fun p => rfl, ht, rfl, le_rfl, fun p _ _ n h => ⟨n, h, rfl, rfl⟩, fun _ _ h => h⟩
  | cons op ops ih =>
    intro s E hc ht hl
    obtain ⟨s1, L1, e1, a1⟩ := step_spec hc ht hl.1
    obtain ⟨s2, L2, e2, c2, t2, n2, x2, y2, z2⟩ := ih a1.counted a1.typed (hl.2 s1 e1)
    refine ⟨s2, fun p => L1 p + L2 p, ?_, c2.congr fun p => by dsimp only; omega, t2, n2.trans a1.names, a1.next.trans x2, fun p hp hi n' hn' => ?_, fun p hp hd => ?_⟩
    · change (step op s).bind _ = _
      rw [e1]
      exact e2
    · obtain ⟨m, m1, m2, m3⟩ := y2 p (hp.trans_le a1.next) (fun v refs h => hi v refs (List.mem_cons_of_mem _ h)) n' hn'
      obtain ⟨n, n1, n2, n3⟩ := a1.same p hp (fun v refs h => hi v refs (h ▸ List.mem_cons_self)) m m1
      exact ⟨n, n1, m2.trans n2, m3.trans n3⟩
    · refine z2 p (hp.trans_le a1.next) ?_
      cases hs : s1.node p with
      | none => rfl
      | some m =>
        by_cases hi : ∀ v refs, op ≠ .init p v refs
        · obtain ⟨n, n1, -⟩ := a1.same p hp hi m hs
          rw [hd] at n1
          cases n1
        · push Not at hi
          obtain ⟨v, refs, rfl⟩ := hi
          obtain ⟨⟨-, n, n1, -⟩, -⟩ := hl.1
          rw [hd] at n1
          cases n1

/-- after the module has been imported: no objects, and the names of the classes are the addresses of strings that do not exist -/
theorem initClasses_spec : ∀ (l : List String) {s : State V}, Counted s (fun _ => 0) → Typed s → (∀ o, s.node o = none) → (∀ o ∈ s.names, o < s.next) →
    ∃ s', initClasses l s = some s' ∧ Counted s' (fun _ => 0) ∧ Typed s' ∧ (∀ o, s'.node o = none) ∧ (∀ o ∈ s'.names, o < s'.next)
      ∧ s'.names.length = s.names.length + l.length ∧ s'.held = s.held := by
  intro l
  induction l with
  | nil => intro s hc ht hn hm; exact ⟨s, rfl, hc, ht, hn, hm, rfl, rfl⟩
  | cons c l ih =>
    intro s hc ht hn hm
    obtain ⟨k, i, n, m⟩ := make_spec (E := fun _ => 0) (.text ("CosTuuM." ++ c)) [] (hc.congr fun p => by simp) (by intro h; cases h)
    set s1 := (make (.text ("CosTuuM." ++ c)) [] s).1 with hs1
    have c1 : Counted { s1 with names := s1.names ++ [s.next] } fun p => 0 + one s.next p := ⟨k.counted.fresh, k.counted.pos, k.counted.count⟩
    obtain ⟨s2, e2, k2, n2⟩ := decref_spec c1
    have hdead : ∀ o, s2.node o = none := by
      intro o
      cases h : s2.node o with
      | none => rfl
      | some x =>
        have ho : o < s2.next := k2.counted.lt h
        rw [n2] at ho
        obtain ⟨y, y1, -, y3⟩ := k2.ext.2 o ho x h
        change o < s1.next at ho
        change s1.node o = some y at y1
        have hon : o = s.next := by
          by_contra hne
          obtain ⟨z, z1, -⟩ := k.ext.2 o (by omega) y y1
          rw [hn o] at z1
          cases z1
        have hown : owned s2 o = 0 := by
          unfold owned
          refine Finset.sum_eq_zero fun p hp => ?_
          cases hp' : s2.node p with
          | none => rfl
          | some w =>
            obtain ⟨w1, w2, -, w4⟩ := k2.ext.2 p (by rw [← n2]; exact k2.counted.lt hp') w hp'
            change s1.node p = some w1 at w2
            have : p = s.next := by
              by_contra hne
              have hp2 : p < s1.next := k.counted.lt w2
              obtain ⟨z, z1, -⟩ := k.ext.2 p (by omega) w1 w2
              rw [hn p] at z1
              cases z1
            subst this
            rw [m] at w2
            cases w2
            simp only [Option.map_some, Option.getD_some]
            rw [w4]
            rfl
        have hcount := k2.counted.count o
        have hheld : s2.held o = 0 := by
          have : s2.held = s.held := k2.held.trans k.held
          rw [this]
          have := hc.count o
          rw [rcOf_none (hn o)] at this
          omega
        have hpos := k2.counted.pos o x h
        rw [rcOf_some h, hown, hheld] at hcount
        omega
    obtain ⟨s3, e3, c3, t3, d3, m3, l3, h3⟩ := ih k2.counted (k2.typed (k.typed ht)) hdead (by
      intro o ho
      rw [k2.names] at ho
      change o ∈ s1.names ++ [s.next] at ho
      rw [n2]
      change o < s1.next
      rw [k.names] at ho
      rcases List.mem_append.1 ho with ho | ho
      · have := hm o ho
        omega
      · have := List.mem_singleton.1 ho
        omega)
    refine ⟨s3, ?_, c3, t3, d3, m3, ?_, h3.trans (k2.held.trans k.held)⟩
    · change (initClass c s).bind _ = _
      have : initClass c s = some s2 := by
        change decref (make (.text ("CosTuuM." ++ c)) [] s).2 { s1 with names := s1.names ++ [(make (.text ("CosTuuM." ++ c)) [] s).2] } = _
        rw [i]
        exact e2
      rw [this]
      exact e3
    · rw [l3, k2.names]
      change (s1.names ++ [s.next]).length + l.length = s.names.length + (l.length + 1)
      rw [k.names, List.length_append]
      simp only [List.length_cons, List.length_nil]
      omega

theorem imported_spec : ∃ s : State V, imported = some s ∧ Counted s (fun _ => 0) ∧ Typed s ∧ (∀ o, s.node o = none) ∧ (∀ o ∈ s.names, o < s.next) ∧ s.names.length = 10
    ∧ ∀ o, s.held o = 0 := by
  obtain ⟨s, h1, h2, h3, h4, h5, h6, h7⟩ := initClasses_spec (V := V) classes (s := empty) ⟨fun _ _ => rfl, fun _ _ h => (by cases h), fun o => rfl⟩ (fun _ _ h => (by cases h))
    (fun _ => rfl) (fun _ h => (by cases h))
  exact ⟨s, h1, h2, h3, h4, h5, h6, fun o => by rw [h7]; rfl⟩

theorem reachable_spec {s : State V} (h : Reachable s) :
    ∃ L : Nat → Nat, Counted s L ∧ Typed s ∧ s.names.length = 10 ∧ ∀ o ∈ s.names, s.node o = none := by
  obtain ⟨s0, ops, e0, hl, hr⟩ := h
  obtain ⟨s1, e1, c1, t1, d1, m1, l1, -⟩ := imported_spec (V := V)
  rw [e1] at e0
  cases e0
  obtain ⟨s2, L, e2, c2, t2, n2, -, -, z2⟩ := run_spec ops c1 t1 hl
  rw [hr] at e2
  cases e2
  exact ⟨_, c2, t2, by rw [n2, l1], fun o ho => z2 o (m1 o (n2 ▸ ho)) (d1 o)⟩

/-- **Nothing is destroyed while it is used**: in every history of calls — objects created, initialised again, copied, dropped, passed to methods, to other objects and to
`get_table`, with good and with bad arguments, in any order — in which the program uses objects it has references on and initialised instances, no destroyed object and no
null pointer is used; afterwards all objects the program has references on exist, and so do all objects that existing objects refer to. -/
theorem c102_safe (s0 : State V) (h0 : imported = some s0) (ops : List (Op V)) (hl : LegalRun s0 ops) :
    ∃ s, run ops s0 = some s ∧ (∀ o, Held s o → Alive s o) ∧ (∀ p n, s.node p = some n → ∀ r ∈ n.refs, Alive s r)
      ∧ ∀ o, Ready s o → ∃ v, valueOf o s = some v := by
  obtain ⟨s1, e1, c1, t1, -⟩ := imported_spec (V := V)
  rw [e1] at h0
  cases h0
  obtain ⟨s2, L, e2, c2, t2, -⟩ := run_spec ops c1 t1 hl
  refine ⟨s2, e2, fun o ho => ?_, fun p n hp r hr => ?_, fun o ho => value_ready c2 t2 ho⟩
  · obtain ⟨n, hn⟩ := c2.alive (o := o) (by have : 0 < s2.held o := ho; omega)
    unfold Alive
    rw [hn]
    rfl
  · obtain ⟨n, hn⟩ := c2.ref hp hr
    unfold Alive
    rw [hn]
    rfl

/-- **Objects keep their values**: whatever happens in between, an instance that still exists behaves as it did, unless its own `__init__` has been called. -/
theorem c102_value {s : State V} (hs : Reachable s) {ops : List (Op V)} (hl : LegalRun s ops) {s' : State V} (hr : run ops s = some s') {o : Nat} {v : V} (hv : valueOf o s = some v)
    (hi : ∀ v refs, Op.init o v refs ∉ ops) (ha : Alive s' o) : valueOf o s' = some v := by
  obtain ⟨E, hc, ht, -⟩ := reachable_spec hs
  obtain ⟨s1, L, e1, c1, t1, -, -, y1, -⟩ := run_spec ops hc ht hl
  rw [hr] at e1
  cases e1
  obtain ⟨n', hn'⟩ := Option.isSome_iff_exists.1 ha
  unfold valueOf at hv
  split at hv
  · rename_i rc c l hn
    split at hv
    · rename_i rc' w refs hm
      split at hv
      · cases hv
        obtain ⟨n, n1, n2, n3⟩ := y1 o (hc.lt hn) hi n' hn'
        rw [hn] at n1
        cases n1
        obtain ⟨m', hm'⟩ := c1.ref hn' (o := c) (by rw [n3]; exact List.mem_cons_self)
        have hnw : ∀ (ops : List (Op V)) {s : State V} {E : Nat → Nat}, Counted s E → Typed s → LegalRun s ops → ∀ {x}, s.node c = some x → (∀ h : x.kind = .wrapper, False) →
            ∀ s', run ops s = some s' → ∀ {x'}, s'.node c = some x' → x'.kind = x.kind ∧ x'.refs = x.refs := by
          intro ops
          induction ops with
          | nil =>
            intro s E _ _ _ x hx _ s' hs' x' hx'
            cases hs'
            rw [hx] at hx'
            cases hx'
            exact ⟨rfl, rfl⟩
          | cons op ops ih =>
            intro s E hc ht hl x hx hk s' hs' x' hx'
            obtain ⟨s1, L1, f1, a1⟩ := step_spec hc ht hl.1
            change (step op s).bind _ = _ at hs'
            rw [f1] at hs'
            have hd : ∃ y, s1.node c = some y := by
              cases hy : s1.node c with
              | some y => exact ⟨y, rfl⟩
              | none =>
                obtain ⟨s2, L2, g2, -, -, -, -, -, z2⟩ := run_spec ops a1.counted a1.typed (hl.2 s1 f1)
                have := z2 c ((hc.lt hx).trans_le a1.next) hy
                change run ops s1 = some s' at hs'
                rw [hs'] at g2
                cases g2
                rw [hx'] at this
                cases this
            obtain ⟨y, hy⟩ := hd
            obtain ⟨x0, q1, q2, q3⟩ := a1.same c (hc.lt hx) (by
              rintro v refs rfl
              obtain ⟨⟨-, z, z1, z2⟩, -⟩ := hl.1
              rw [hx] at z1
              cases z1
              exact hk z2) y hy
            rw [hx] at q1
            cases q1
            obtain ⟨r1, r2⟩ := ih a1.counted a1.typed (hl.2 s1 f1) hy (by rw [q2]; exact hk) s' hs' hx'
            exact ⟨r1.trans q2, r2.trans q3⟩
        obtain ⟨p1, p2⟩ := hnw ops hc ht hl hm (by intro h; cases h) s' hr hm'
        obtain ⟨rc1, k1, l1⟩ := n'
        obtain ⟨rc2, k2, l2⟩ := m'
        dsimp only at n2 n3 p1 p2
        subst n2 n3 p1 p2
        unfold valueOf
        rw [hn']
        dsimp only
        rw [hm']
        dsimp only
        rw [if_pos]
        refine List.all_eq_true.2 fun r hr => ?_
        obtain ⟨z, hz⟩ := c1.ref hm' hr
        rw [hz]
        rfl
      · cases hv
    · cases hv
  · cases hv

theorem value_new {s : State V} {E : Nat → Nat} (hc : Counted s E) {o c : Nat} {v : V} {refs : List Nat} (h : ∃ k, s.node o = some k ∧ k.kind = .wrapper ∧ k.refs = [c])
    (h' : ∃ m, s.node c = some m ∧ m.kind = .cpp v ∧ m.refs = refs) : valueOf o s = some v := by
  obtain ⟨⟨a1, a2, a3⟩, b1, b2, b3⟩ := h
  obtain ⟨⟨d1, d2, d3⟩, e1, e2, e3⟩ := h'
  dsimp only at b2 b3 e2 e3
  subst b2 b3 e2 e3
  unfold valueOf
  rw [b1]
  dsimp only
  rw [e1]
  dsimp only
  rw [if_pos]
  refine List.all_eq_true.2 fun r hr => ?_
  obtain ⟨z, hz⟩ := hc.ref e1 hr
  rw [hz]
  rfl

theorem held_fresh {s : State V} {E : Nat → Nat} (hc : Counted s E) : s.held s.next = 0 := by
  have := hc.count s.next
  rw [rcOf_none (hc.fresh _ le_rfl)] at this
  omega

/-- a class that is called with correct arguments returns a new object with the given contents -/
theorem c102_created {s : State V} (hs : Reachable s) (v : V) (refs : List Nat) (hr : ∀ r ∈ refs, Held s r) :
    ∃ s' o, step (.create v refs) s = some s' ∧ ¬ Alive s o ∧ s'.held o = 1 ∧ valueOf o s' = some v := by
  obtain ⟨E, hc, ht, -⟩ := reachable_spec hs
  obtain ⟨s1, e1, c1, t1, na1, h1, n1, x1, y1, z1⟩ := create_spec hc ht v hr
  refine ⟨hold s.next s1, s.next, ?_, ?_, ?_, value_new (hold_spec c1) y1 z1⟩
  · change (init s.next v refs (alloc s).1).bind _ = _
    rw [e1]
    rfl
  · unfold Alive
    rw [hc.fresh _ le_rfl]
    exact Bool.false_ne_true
  · change (if s.next = s.next then s1.held s.next + 1 else _) = 1
    rw [if_pos rfl, h1, held_fresh hc]

/-- an instance whose `__init__` is called, for the first time or again, has the new contents -/
theorem c102_initialised {s : State V} (hs : Reachable s) {o : Nat} {v : V} {refs : List Nat} (hl : Legal s (.init o v refs)) :
    ∃ s', step (.init o v refs) s = some s' ∧ s'.held = s.held ∧ valueOf o s' = some v := by
  obtain ⟨E, hc, ht, -⟩ := reachable_spec hs
  obtain ⟨⟨-, n, h2, h3⟩, hr⟩ := hl
  obtain ⟨s1, e1, c1, n1, h1, na1, t1, x1, y1, z1⟩ := init_spec hc h2 h3 v (refs := refs) fun r hr' => hc.alive (by have : 0 < s.held r := hr r hr'; omega)
  exact ⟨s1, e1, h1, value_new c1 y1 z1⟩

/-- **Alignment objects do not depend on the orientation objects they were made from**: whatever happens to these afterwards — they are dropped, they are initialised
again — the alignment object still has the values they had when it was created. -/
theorem c102_independent {s : State V} (hs : Reachable s) (f : List V → V) (os : List Nat) (ho : ∀ o ∈ os, Ready s o) :
    ∃ s' o vs, step (.align f os) s = some s' ∧ ¬ Alive s o ∧ s'.held o = 1 ∧ (os.mapM fun o => valueOf o s) = some vs ∧ valueOf o s' = some (f vs)
      ∧ ∀ ops s'', LegalRun s' ops → run ops s' = some s'' → (∀ v refs, Op.init o v refs ∉ ops) → Alive s'' o → valueOf o s'' = some (f vs) := by
  obtain ⟨E, hc, ht, -⟩ := reachable_spec hs
  obtain ⟨vs, hvs⟩ := values_ready hc ht os ho
  obtain ⟨s1, e1, c1, t1, na1, h1, n1, x1, y1, z1⟩ := create_spec hc ht (f vs) (refs := []) (by simp)
  have hstep : step (.align f os) s = some (hold s.next s1) := by
    change (os.mapM fun o => valueOf o s).bind _ = _
    rw [hvs]
    change (init s.next (f vs) [] (alloc s).1).bind _ = _
    rw [e1]
    rfl
  have hval : valueOf s.next (hold s.next s1) = some (f vs) := value_new (hold_spec c1) y1 z1
  refine ⟨hold s.next s1, s.next, vs, hstep, ?_, ?_, hvs, hval, fun ops s'' hl hr hi ha => ?_⟩
  · unfold Alive
    rw [hc.fresh _ le_rfl]
    exact Bool.false_ne_true
  · change (if s.next = s.next then s1.held s.next + 1 else _) = 1
    rw [if_pos rfl, h1, held_fresh hc]
  · refine c102_value ?_ hl hr hval hi ha
    obtain ⟨s0, ops0, q0, q1, q2⟩ := hs
    refine ⟨s0, ops0 ++ [.align f os], q0, ?_, ?_⟩
    · clear hc ht hvs hstep hval e1 q0 x1 na1 h1 n1
      revert s0
      induction ops0 with
      | nil =>
        intro s0 _ q2
        cases q2
        exact ⟨ho, fun _ _ => trivial⟩
      | cons a l ih =>
        intro s0 q1 q2
        refine ⟨q1.1, fun s' h' => ih s' (q1.2 s' h') ?_⟩
        change (step a s0).bind _ = _ at q2
        rw [h'] at q2
        exact q2
    · have app : ∀ (l l' : List (Op V)) (s : State V), run (l ++ l') s = (run l s).bind (run l') := by
        intro l
        induction l with
        | nil => intro l' s; rfl
        | cons a l ih =>
          intro l' s
          change (step a s).bind _ = ((step a s).bind _).bind _
          cases step a s with
          | none => rfl
          | some x => exact ih l' x
      rw [app, q2]
      change (step (.align f os) s).bind _ = _
      rw [hstep]
      rfl

/-- A lost reference keeps the object for ever. -/
theorem lost_forever {s : State V} {E : Nat → Nat} (hc : Counted s E) (ht : Typed s) {o : Nat} (ho : 0 < E o) {ops : List (Op V)} (hl : LegalRun s ops) {s' : State V}
    (hr : run ops s = some s') : Alive s' o := by
  obtain ⟨s1, L, e1, c1, -⟩ := run_spec ops hc ht hl
  rw [hr] at e1
  cases e1
  obtain ⟨n, hn⟩ := c1.alive (o := o) (by omega)
  unfold Alive
  rw [hn]
  rfl

/-- **Violation: objects that are never destroyed.**  A second initialisation, the average over orientations (the default for T-matrices), an array without axes (a number), a
T-matrix method with an array with several axes, an array before a wrong argument, and every result with several axes (every table): afterwards there is an object that exists for
ever, whatever the program does, also when it has given up all references. -/
theorem c102_violated_lost {s : State V} (hs : Reachable s) {op : Op V} (hl : Legal s op) (hn : ¬ Tidy s op) :
    ∃ s' o, step op s = some s' ∧ ∀ ops s'', LegalRun s' ops → run ops s' = some s'' → Alive s'' o := by
  obtain ⟨E, hc, ht, -⟩ := reachable_spec hs
  obtain ⟨s1, L, e1, a1⟩ := step_spec hc ht hl
  have : ∃ o, 0 < L o := by
    by_contra h
    push Not at h
    exact hn (a1.tidy.1 fun o => by have := h o; omega)
  obtain ⟨o, ho⟩ := this
  exact ⟨s1, o, e1, fun ops s'' hl' hr => lost_forever a1.counted a1.typed (o := o) (by omega) hl' hr⟩

/-- **Violation**: instances made with `__new__` have a null pointer, which the methods use. -/
theorem c102_violated_new {s : State V} (hs : Reachable s) : ∃ s' o, step .alloc s = some s' ∧ Instance s' o ∧ step (.use o) s' = none ∧ step (.initWrong o) s' = some s' := by
  obtain ⟨E, hc, ht, -⟩ := reachable_spec hs
  have hn : (alloc s).1.node s.next = some ⟨1, .wrapper, []⟩ := if_pos rfl
  refine ⟨hold s.next (alloc s).1, s.next, rfl, ⟨?_, _, hn, rfl⟩, ?_, rfl⟩
  · change 0 < (if s.next = s.next then s.held s.next + 1 else _)
    rw [if_pos rfl]
    omega
  · change (valueOf s.next (hold s.next (alloc s).1)).map _ = none
    have : valueOf s.next (hold s.next (alloc s).1) = none := by
      unfold valueOf
      have hn' : (hold s.next (alloc s).1).node s.next = some ⟨1, .wrapper, []⟩ := hn
      rw [hn']
    rw [this]
    rfl

/-- **Violation**: the name of a class of the module can never be used: it is the address of a string that was destroyed when the module was imported. -/
theorem c102_violated_names {s : State V} (hs : Reachable s) (k : Nat) : step (.className k) s = none := by
  obtain ⟨E, hc, ht, -, hd⟩ := reachable_spec hs
  change (s.names[k]?).bind _ = none
  cases h : s.names[k]? with
  | none => rfl
  | some o =>
    change (s.node o).bind _ = none
    rw [hd o (List.mem_of_getElem? h)]
    rfl

/-- a property of kinds and references -/
def All (R : Nat → Kind V → List Nat → Prop) (s : State V) : Prop := ∀ p n, s.node p = some n → R p n.kind n.refs

theorem all_incref {R : Nat → Kind V → List Nat → Prop} {s s' : State V} {o : Nat} (h : All R s) (e : incref o s = some s') : All R s' ∧ s'.next = s.next := by
  unfold incref at e
  cases hn : s.node o with
  | none => rw [hn] at e; cases e
  | some n =>
    rw [hn] at e
    cases e
    refine ⟨fun p m hm => ?_, rfl⟩
    dsimp only at hm
    split at hm
    · rename_i hp
      cases hm
      subst hp
      exact h p n hn
    · exact h p m hm

theorem all_release {R : Nat → Kind V → List Nat → Prop} : ∀ (f : Nat) (l : List Nat) {s s' : State V}, All R s → release f l s = some s' → All R s' := by
  intro f
  induction f with
  | zero =>
    intro l s s' h e
    cases l with
    | nil => cases e; exact h
    | cons a l => cases e
  | succ f ih =>
    intro l s s' h e
    cases l with
    | nil => cases e; exact h
    | cons a l =>
      unfold release at e
      split at e
      · cases e
      · rename_i n hn
        split at e
        · refine ih _ (fun p m hm => ?_) e
          dsimp only at hm
          split at hm
          · cases hm
          · exact h p m hm
        · refine ih _ (fun p m hm => ?_) e
          dsimp only at hm
          split at hm
          · rename_i hp
            cases hm
            subst hp
            exact h p n hn
          · exact h p m hm

theorem all_make {R : Nat → Kind V → List Nat → Prop} {s : State V} (h : All R s) {k : Kind V} {refs : List Nat} (hr : R s.next k refs) : All R (make k refs s).1 := by
  intro p m hm
  change (if p = s.next then some ⟨1, k, refs⟩ else s.node p) = some m at hm
  split at hm
  · rename_i hp
    cases hm
    subst hp
    exact hr
  · exact h p m hm

theorem all_convert {R : Nat → Kind V → List Nat → Prop} (ha : ∀ p, R p .array []) {a : Arg} {s : State V} {q : State V × Nat} (h : All R s) (e : convert a s = some q) : All R q.1 := by
  cases a with
  | array o =>
    change (incref o s).map _ = _ at e
    cases hi : incref o s with
    | none => rw [hi] at e; cases e
    | some x =>
      rw [hi] at e
      cases e
      exact (all_incref h hi).1
  | value =>
    cases e
    exact all_make h (ha _)

theorem all_converts {R : Nat → Kind V → List Nat → Prop} (ha : ∀ p, R p .array []) : ∀ (as : List Arg) {s : State V} {q : State V × List Nat}, All R s → converts as s = some q → All R q.1 := by
  intro as
  induction as with
  | nil => intro s q h e; cases e; exact h
  | cons a as ih =>
    intro s q h e
    change (convert a s).bind _ = _ at e
    cases h1 : convert a s with
    | none => rw [h1] at e; cases e
    | some x =>
      rw [h1] at e
      change (converts as x.1).bind _ = _ at e
      cases h2 : converts as x.1 with
      | none => rw [h2] at e; cases e
      | some y =>
        rw [h2] at e
        have hy : All R y.1 := ih (all_convert ha h h1) h2
        cases e
        exact hy

theorem all_unpacks {R : Nat → Kind V → List Nat → Prop} : ∀ (ts ds : List Nat) {s s' : State V}, (∀ d ∈ ds, d ≠ 0) → All R s → unpacks ts ds s = some s' → All R s' := by
  intro ts
  induction ts with
  | nil => intro ds s s' _ h e; cases ds <;> (cases e; exact h)
  | cons t ts ih =>
    intro ds s s' hd h e
    cases ds with
    | nil => cases e; exact h
    | cons d ds =>
      change (unpack t d s).bind _ = _ at e
      have h0 : unpack t d s = decref t s := by
        unfold unpack
        rw [if_neg (hd d List.mem_cons_self)]
        rfl
      rw [h0] at e
      cases h1 : decref t s with
      | none => rw [h1] at e; cases e
      | some x =>
        rw [h1] at e
        exact ih ds (fun d hd' => hd d (List.mem_cons_of_mem _ hd')) (all_release _ _ h h1) e

/-- references go to older objects, except for the one of an instance on its C++ object -/
def older (p : Nat) (k : Kind V) (refs : List Nat) : Prop := (∀ r ∈ refs, r + 2 ≤ p) ∨ (k = .wrapper ∧ refs = [p + 1])

theorem older_nil (p : Nat) (k : Kind V) : older p k [] := Or.inl fun _ h => by cases h

theorem older_create {s : State V} {E : Nat → Nat} (hc : Counted s E) (ht : Typed s) (ho : All older s) (v : V) {refs : List Nat} (hr : ∀ r ∈ refs, Held s r) {s' : State V}
    (e : ((init s.next v refs (alloc s).1).bind fun s1 => some (hold s.next s1)) = some s') : All older s' := by
  obtain ⟨s1, e1, c1, t1, na1, h1, n1, x1, ⟨k, y1, y2, y3⟩, m, z1, z2, z3⟩ := create_spec hc ht v hr
  rw [e1] at e
  cases e
  intro p n hn
  change s1.node p = some n at hn
  rcases Nat.lt_trichotomy p s.next with h | h | h
  · obtain ⟨a, a1, a2, a3⟩ := x1 p h n hn
    rw [a2, a3]
    exact ho p a a1
  · subst h
    rw [y1] at hn
    cases hn
    exact Or.inr ⟨y2, y3⟩
  · have hp : p < s1.next := c1.lt hn
    have : p = s.next + 1 := by omega
    subst this
    rw [z1] at hn
    cases hn
    refine Or.inl fun r hr' => ?_
    rw [z3] at hr'
    obtain ⟨x, hx⟩ := hc.alive (o := r) (by have : 0 < s.held r := hr r hr'; omega)
    have := hc.lt hx
    omega

theorem older_step {s : State V} {E : Nat → Nat} (hc : Counted s E) (ht : Typed s) (ho : All older s) {op : Op V} (hl : Legal s op) (htidy : Tidy s op)
    (hi : ∀ o v refs, op ≠ .init o v refs) {s' : State V} (e : step op s = some s') : All older s' := by
  cases op with
  | object => cases e; exact all_make ho (older_nil _ _)
  | take o =>
    change (incref o s).map _ = _ at e
    cases h1 : incref o s with
    | none => rw [h1] at e; cases e
    | some x => rw [h1] at e; cases e; exact (all_incref ho h1).1
  | drop o => exact all_release _ _ (s := unhold o s) ho e
  | alloc => cases e; exact all_make ho (older_nil _ _)
  | create v refs => exact older_create hc ht ho v hl e
  | createMatrix v w =>
    have : w = none := htidy
    subst this
    refine older_create hc ht ho v (refs := []) (by simp) ?_
    rw [← e]
    change _ = ((init s.next v [] (alloc s).1).bind _).bind _
    cases init s.next v [] (alloc s).1 <;> rfl
  | createWrong => exact all_release _ _ (s := (alloc s).1) (all_make ho (older_nil _ _)) e
  | init o v refs => exact absurd rfl (hi o v refs)
  | initWrong o => cases e; exact ho
  | use o =>
    change (valueOf o s).map _ = _ at e
    cases h1 : valueOf o s with
    | none => rw [h1] at e; cases e
    | some x => rw [h1] at e; cases e; exact ho
  | align f os =>
    obtain ⟨vs, hvs⟩ := values_ready hc ht os hl
    change (os.mapM fun o => valueOf o s).bind _ = _ at e
    rw [hvs] at e
    exact older_create hc ht ho (f vs) (refs := []) (by simp) e
  | absorption o a d =>
    have : d = 1 := htidy
    subst this
    change (convert a s).bind _ = _ at e
    cases h1 : convert a s with
    | none => rw [h1] at e; cases e
    | some x =>
      rw [h1] at e
      have a1 := all_convert (fun p => older_nil p .array) ho h1
      change (valueOf o (make .array [] x.1).1).bind _ = _ at e
      cases h2 : valueOf o (make .array [] x.1).1 with
      | none => rw [h2] at e; cases e
      | some y =>
        rw [h2] at e
        change (decref x.2 (make .array [] x.1).1).bind _ = _ at e
        cases h3 : decref x.2 (make .array [] x.1).1 with
        | none => rw [h3] at e; cases e
        | some z =>
          rw [h3] at e
          have hz : All older z := all_release _ _ (s := (make .array [] x.1).1) (all_make a1 (older_nil _ _)) h3
          cases e
          exact hz
  | absorptions o a d b => exact htidy.elim
  | extinction o a b' d d' b => exact htidy.elim
  | unpacking o as ds b => exact htidy.elim
  | table os as ds x y =>
    obtain ⟨hx, hy, hd⟩ := htidy
    subst hx hy
    change (converts as s).bind _ = _ at e
    cases h1 : converts as s with
    | none => rw [h1] at e; cases e
    | some x =>
      rw [h1] at e
      have a1 := all_converts (fun p => older_nil p .array) as ho h1
      change (os.mapM fun o => valueOf o x.1).bind _ = _ at e
      cases h2 : (os.mapM fun o => valueOf o x.1) with
      | none => rw [h2] at e; cases e
      | some y =>
        rw [h2] at e
        change (unpacks x.2 ds x.1).bind _ = _ at e
        cases h3 : unpacks x.2 ds x.1 with
        | none => rw [h3] at e; cases e
        | some z =>
          rw [h3] at e
          cases e
          exact all_unpacks _ _ hd a1 h3
  | wrongCall as =>
    have : as = [] := htidy
    subst this
    cases e
    exact ho
  | className k => exact hl.elim

theorem tidy_run : ∀ (ops : List (Op V)) {s s' : State V}, Counted s (fun _ => 0) → Typed s → All older s → LegalRun s ops → TidyRun s ops → run ops s = some s' →
    Counted s' (fun _ => 0) ∧ Typed s' ∧ All older s' := by
  intro ops
  induction ops with
  | nil => intro s s' hc ht ho _ _ e; cases e; exact ⟨hc, ht, ho⟩
  | cons op ops ih =>
    intro s s' hc ht ho hl htd e
    obtain ⟨s1, L, e1, a1⟩ := step_spec hc ht hl.1
    have hL := a1.tidy.2 htd.1
    change (step op s).bind _ = _ at e
    rw [e1] at e
    exact ih (a1.counted.congr fun p => by rw [hL p]) a1.typed (older_step hc ht ho hl.1 htd.1 htd.2.1 e1) (hl.2 s1 e1) (htd.2.2 s1 e1) e

/-- **Everything is destroyed**: after a history of actions that lose nothing (see `Tidy`), when the program has given up all references, no object exists any more: no instance, no
C++ object, no array, none of the functions and arguments that were given to custom dust properties and orientation distributions.  (Partial: the full property does not hold, see
`c102_violated_lost`.) -/
theorem c102_released_partial (s0 : State V) (h0 : imported = some s0) (ops : List (Op V)) (hl : LegalRun s0 ops) (ht : TidyRun s0 ops) (s : State V) (hr : run ops s0 = some s)
    (hh : ∀ o, ¬ Held s o) : ∀ o, ¬ Alive s o := by
  obtain ⟨s1, e1, c1, t1, d1, -⟩ := imported_spec (V := V)
  rw [e1] at h0
  cases h0
  obtain ⟨hc, hty, ho⟩ := tidy_run ops c1 t1 (fun p n hn => by rw [d1 p] at hn; cases hn) hl ht hr
  have href : ∀ p n, s.node p = some n → ∃ q m, s.node q = some m ∧ p ∈ m.refs := by
    intro p n hn
    have h1 := hc.count p
    have h2 := hc.pos p n hn
    have h3 : ¬ 0 < s.held p := hh p
    rw [rcOf_some hn] at h1
    have h4 : owned s p ≠ 0 := by omega
    obtain ⟨q, -, hq⟩ := Finset.exists_ne_zero_of_sum_ne_zero h4
    cases hm : s.node q with
    | none => rw [hm] at hq; exact absurd rfl hq
    | some m =>
      rw [hm] at hq
      refine ⟨q, m, hm, ?_⟩
      by_contra hnot
      exact hq (List.count_eq_zero.2 hnot)
  have none_of_large : ∀ k p n, s.node p = some n → s.next - p ≤ k → False := by
    intro k
    induction k with
    | zero =>
      intro p n hn hk
      have := hc.lt hn
      omega
    | succ k ih =>
      intro p n hn hk
      obtain ⟨q, m, hm, hq⟩ := href p n hn
      rcases ho q m hm with h | ⟨h, h'⟩
      · have := h p hq
        exact ih q m hm (by have := hc.lt hm; omega)
      · rw [h'] at hq
        have hpq := List.mem_singleton.1 hq
        obtain ⟨q2, m2, hm2, hq2⟩ := href q m hm
        rcases ho q2 m2 hm2 with g | ⟨g, g'⟩
        · have := g q hq2
          exact ih q2 m2 hm2 (by have := hc.lt hm2; omega)
        · rcases hty q2 m2 hm2 g with w | ⟨c, w, w'⟩
          · rw [w] at hq2
            cases hq2
          · rw [w] at hq2
            obtain rfl := List.mem_singleton.1 hq2
            obtain ⟨v, hv⟩ := w' m hm
            rw [h] at hv
            cases hv
  intro o hal
  obtain ⟨n, hn⟩ := Option.isSome_iff_exists.1 hal
  exact none_of_large _ o n hn le_rfl

/-- a history: a function, custom dust properties with it (instance 11, C++ object 12), the program gives up the function, uses the dust properties, creates an alignment object from
them, gives up the dust properties and the alignment object -/
def exOps : List (Op Nat) := [.object, .create 7 [10], .drop 10, .use 11, .align List.sum [11, 11], .drop 11, .use 13, .drop 13]

/-- checks for the example -/
def readyB (s : State V) (o : Nat) : Bool :=
  decide (0 < s.held o) && match s.node o with
    | some ⟨_, .wrapper, _ :: _⟩ => true
    | _ => false

theorem readyB_ready {s : State V} {o : Nat} (h : readyB s o = true) : Ready s o := by
  unfold readyB at h
  rw [Bool.and_eq_true] at h
  refine ⟨show 0 < s.held o from of_decide_eq_true h.1, ?_⟩
  have h2 := h.2
  split at h2
  · rename_i hn
    exact ⟨_, hn, rfl, by simp⟩
  · cases h2

def legalB (s : State V) : Op V → Bool
  | .object => true
  | .drop o => decide (0 < s.held o)
  | .create _ refs => refs.all fun r => decide (0 < s.held r)
  | .use o => readyB s o
  | .align _ os => os.all (readyB s)
  | _ => false

def runB : List (Op V) → State V → Bool
  | [], _ => true
  | op :: l, s => legalB s op && match step op s with
    | none => true
    | some s' => runB l s'

theorem legalB_legal {s : State V} {op : Op V} (h : legalB s op = true) : Legal s op ∧ Tidy s op ∧ ∀ o v refs, op ≠ .init o v refs := by
  cases op with
  | object => exact ⟨trivial, trivial, fun _ _ _ h => by cases h⟩
  | drop o => exact ⟨show 0 < s.held o from of_decide_eq_true h, trivial, fun _ _ _ h => by cases h⟩
  | create v refs => exact ⟨fun r hr => show 0 < s.held r from of_decide_eq_true (List.all_eq_true.1 h r hr), trivial, fun _ _ _ h => by cases h⟩
  | use o => exact ⟨readyB_ready h, trivial, fun _ _ _ h => by cases h⟩
  | align f os => exact ⟨fun o ho => readyB_ready (List.all_eq_true.1 h o ho), trivial, fun _ _ _ h => by cases h⟩
  | _ => cases h

theorem runB_legal : ∀ (ops : List (Op V)) {s : State V}, runB ops s = true → LegalRun s ops ∧ TidyRun s ops := by
  intro ops
  induction ops with
  | nil => intro s _; exact ⟨trivial, trivial⟩
  | cons op ops ih =>
    intro s h
    unfold runB at h
    rw [Bool.and_eq_true] at h
    obtain ⟨h1, h2, h3⟩ := legalB_legal h.1
    have hr : ∀ s', step op s = some s' → runB ops s' = true := by
      intro s' e
      have := h.2
      rw [e] at this
      exact this
    exact ⟨⟨h1, fun s' e => (ih (hr s' e)).1⟩, h2, h3, fun s' e => (ih (hr s' e)).2⟩

/-- the hypotheses of `c102_safe` and `c102_released_partial` are met; while the dust properties are used, the function the program has given up exists -/
theorem exOps_legal : ∃ s0 : State Nat, imported = some s0 ∧ LegalRun s0 exOps ∧ TidyRun s0 exOps ∧ ((run (exOps.take 3) s0).map fun s => (s.held 10, (s.node 10).isSome, valueOf 11 s)) = some (0, true, some 7)
    ∧ ((run (exOps.take 6) s0).map fun s => ((s.node 10).isSome, (s.node 11).isSome, valueOf 13 s)) = some (false, false, some 14)
    ∧ ((run exOps s0).map fun s => (List.range 15).map s.held) = some (List.replicate 15 0) := by
  obtain ⟨s0, h0⟩ : ∃ s0, (imported : Option (State Nat)) = some s0 := ⟨_, rfl⟩
  obtain ⟨h1, h2⟩ := runB_legal exOps (s := s0) (by cases h0; decide +kernel)
  refine ⟨s0, h0, h1, h2, ?_, ?_, ?_⟩ <;> (cases h0; decide +kernel)

/-- the hypotheses of the violations are met: the default T-matrix -/
example {s : State Nat} : Legal s (.createMatrix 1 (some 2)) ∧ ¬ Tidy s (.createMatrix 1 (some 2)) := ⟨trivial, by intro h; cases h⟩

end Verif.Lifetime
