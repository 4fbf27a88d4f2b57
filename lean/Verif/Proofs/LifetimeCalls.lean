import Verif.Proofs.Lifetime

/-!
# The routines of the module
-/
namespace Verif.Lifetime

set_option autoImplicit false

open Finset

variable {V : Type}

/-- an object that the program holds is there after an operation, and is the same -/
theorem Keep.same {s s' : State V} {E E' : Nat → Nat} (h : Keep s s' E') (hc : Counted s E) {o : Nat} (ho : 0 < s.held o) {n : Node V} (hn : s.node o = some n) :
    ∃ n', s'.node o = some n' ∧ n'.kind = n.kind ∧ n'.refs = n.refs := by
  obtain ⟨n', hn'⟩ := h.counted.alive (o := o) (by rw [h.held]; omega)
  obtain ⟨m, m1, m2, m3⟩ := h.ext.2 o (hc.lt hn) n' hn'
  rw [hn] at m1
  cases m1
  exact ⟨n', hn', m2, m3⟩

theorem Keep.ready {s s' : State V} {E E' : Nat → Nat} (h : Keep s s' E') (hc : Counted s E) {o : Nat} (ho : Ready s o) : Ready s' o := by
  obtain ⟨h1, n, h2, h3, h4⟩ := ho
  obtain ⟨n', e1, e2, e3⟩ := h.same hc h1 h2
  exact ⟨by unfold Held; rw [h.held]; exact h1, n', e1, e2.trans h3, by rw [e3]; exact h4⟩

theorem Keep.given {s s' : State V} {E E' : Nat → Nat} (h : Keep s s' E') (hc : Counted s E) {a : Arg} (ha : Given s a) : Given s' a := by
  cases a with
  | value => trivial
  | array o =>
    obtain ⟨h1, n, h2, h3⟩ := ha
    obtain ⟨n', e1, e2, -⟩ := h.same hc h1 h2
    exact ⟨by unfold Held; rw [h.held]; exact h1, n', e1, e2.trans h3⟩

/-- an instance that has been initialised has a C++ object, and what that needs -/
theorem value_ready {s : State V} {E : Nat → Nat} (hc : Counted s E) (ht : Typed s) {o : Nat} (ho : Ready s o) : ∃ v, valueOf o s = some v := by
  obtain ⟨-, ⟨rc, k, refs⟩, h2, h3, h4⟩ := ho
  change k = .wrapper at h3
  subst h3
  rcases ht o _ h2 rfl with e | ⟨c, c1, c2⟩
  · exact absurd e h4
  · change refs = [c] at c1
    subst c1
    obtain ⟨⟨rc', k', refs'⟩, hm⟩ := hc.ref h2 (List.mem_singleton_self c)
    obtain ⟨v, hv⟩ := c2 _ hm
    change k' = .cpp v at hv
    subst hv
    refine ⟨v, ?_⟩
    unfold valueOf
    rw [h2]
    dsimp only
    rw [hm]
    dsimp only
    rw [if_pos]
    rw [List.all_eq_true]
    intro r hr
    obtain ⟨q, hq⟩ := hc.ref hm hr
    rw [hq]
    rfl

theorem values_ready {s : State V} {E : Nat → Nat} (hc : Counted s E) (ht : Typed s) : ∀ (os : List Nat), (∀ o ∈ os, Ready s o) → ∃ vs, (os.mapM fun o => valueOf o s) = some vs := by
  intro os
  induction os with
  | nil => intro _; exact ⟨[], rfl⟩
  | cons o os ih =>
    intro h
    obtain ⟨v, hv⟩ := value_ready hc ht (h o (List.mem_cons_self ..))
    obtain ⟨vs, hvs⟩ := ih fun q hq => h q (List.mem_cons_of_mem _ hq)
    exact ⟨v :: vs, by rw [List.mapM_cons, hv, hvs]; rfl⟩

/-- `__init__` -/
theorem init_spec {s : State V} {E : Nat → Nat} (hc : Counted s E) {o : Nat} {n : Node V} (ho : s.node o = some n) (hk : n.kind = .wrapper) (v : V) {refs : List Nat}
    (hr : ∀ r ∈ refs, ∃ m, s.node r = some m) :
    ∃ s', init o v refs s = some s' ∧ Counted s' (fun p => E p + n.refs.count p) ∧ s'.next = s.next + 1 ∧ s'.held = s.held ∧ s'.names = s.names ∧ (Typed s → Typed s')
      ∧ (∀ p < s.next, p ≠ o → ∀ n', s'.node p = some n' → ∃ n, s.node p = some n ∧ n'.kind = n.kind ∧ n'.refs = n.refs)
      ∧ (∃ k, s'.node o = some k ∧ k.kind = .wrapper ∧ k.refs = [s.next]) ∧ ∃ m, s'.node s.next = some m ∧ m.kind = .cpp v ∧ m.refs = refs := by
  obtain ⟨s1, e1, k1, n1, p1⟩ := increfs_spec refs hc hr
  obtain ⟨k2, i2, n2, m2⟩ := make_spec (.cpp v) refs k1.counted (by intro h; cases h)
  obtain ⟨n', q1, q2, q3⟩ := p1 o n ho
  have hlt := hc.lt ho
  have hq : (make (.cpp v) refs s1).1.node o = some n' := by
    change (if o = s1.next then _ else s1.node o) = _
    rw [if_neg (by omega), q1]
  have hne : s.next ≠ o := by omega
  refine ⟨upd (make (.cpp v) refs s1).1 o (some { n' with refs := [s.next] }), ?_, ⟨fun p hp => ?_, fun p m hm => ?_, fun p => ?_⟩, ?_, ?_, ?_, ?_, ?_, ?_, ?_⟩
  · unfold init setPtr
    rw [e1]
    change ((make (.cpp v) refs s1).1.node o).map _ = _
    rw [hq]
    change some (upd (make (.cpp v) refs s1).1 o (some { n' with refs := [s1.next] })) = _
    rw [n1]
  · have hp : (make (.cpp v) refs s1).1.next ≤ p := hp
    rw [upd_node, if_neg (by rw [n2, n1] at hp; omega)]
    exact k2.counted.fresh p hp
  · rw [upd_node] at hm
    split_ifs at hm
    · cases hm
      exact k2.counted.pos o n' hq
    · exact k2.counted.pos p m hm
  · have hw := owned_upd (s := (make (.cpp v) refs s1).1) (p := o) (by rw [n2, n1]; omega) (some { n' with refs := [s.next] }) p
    rw [hq] at hw
    have hw : owned (upd (make (.cpp v) refs s1).1 o (some { n' with refs := [s.next] })) p + n'.refs.count p = owned (make (.cpp v) refs s1).1 p + [s.next].count p := hw
    have hcp := k2.counted.count p
    rw [count_one, q3] at hw
    rw [n1] at hcp
    have hrc : rcOf (upd (make (.cpp v) refs s1).1 o (some { n' with refs := [s.next] })) p = rcOf (make (.cpp v) refs s1).1 p := by
      rw [rcOf_upd]
      split_ifs with e
      · subst e
        rw [rcOf_some hq]
        rfl
      · rfl
    rw [hrc, hcp]
    change _ = (make (.cpp v) refs s1).1.held p + _ + _
    omega
  · change (make (.cpp v) refs s1).1.next = _
    rw [n2, n1]
  · exact k2.held.trans k1.held
  · exact k2.names.trans k1.names
  · intro ht p m hm hw
    have ht2 := k2.typed (k1.typed ht)
    rw [upd_node] at hm
    split_ifs at hm with e
    · cases hm
      refine Or.inr ⟨s.next, rfl, fun q hq => ?_⟩
      rw [upd_node, if_neg hne, ← n1, m2] at hq
      cases hq
      exact ⟨v, rfl⟩
    · rcases ht2 p m hm hw with h | ⟨c, c1, c2⟩
      · exact Or.inl h
      · refine Or.inr ⟨c, c1, fun q hq' => ?_⟩
        rw [upd_node] at hq'
        split_ifs at hq' with e2
        · cases hq'
          subst e2
          obtain ⟨v', hv'⟩ := c2 n' hq
          exact ⟨v', hv'⟩
        · exact c2 q hq'
  · intro p hp hpo m hm
    rw [upd_node, if_neg hpo] at hm
    obtain ⟨a, a1, a2, a3⟩ := k2.ext.2 p (by omega) m hm
    obtain ⟨b, b1, b2, b3⟩ := k1.ext.2 p hp a a1
    exact ⟨b, b1, a2.trans b2, a3.trans b3⟩
  · exact ⟨{ n' with refs := [s.next] }, by rw [upd_node, if_pos rfl], q2.trans hk, rfl⟩
  · exact ⟨_, by rw [upd_node, if_neg hne, ← n1, m2], rfl, rfl⟩

theorem view_spec {s : State V} {E : Nat → Nat} (hc : Counted s E) {o : Nat} (ho : ∃ n, s.node o = some n) :
    ∃ s' r, view o s = some (s', r) ∧ Keep s s' (fun p => E p + one r p) := by
  obtain ⟨n, hn⟩ := ho
  have hown : ∃ m, s.node (n.refs.head?.getD o) = some m := by
    cases h : n.refs with
    | nil => exact ⟨n, hn⟩
    | cons b l => exact hc.ref hn (by rw [h]; exact List.mem_cons_self ..)
  obtain ⟨s1, e1, k1, n1⟩ := incref_spec hc hown
  obtain ⟨k2, i2, -, -⟩ := make_spec (E := E) .array [n.refs.head?.getD o] (k1.counted.congr fun p => by rw [count_one]) (by intro h; cases h)
  refine ⟨(make .array [n.refs.head?.getD o] s1).1, (make .array [n.refs.head?.getD o] s1).2, ?_, ?_⟩
  · unfold view
    rw [hn]
    change (incref _ s).bind _ = _
    rw [e1]
    rfl
  · rw [i2]
    exact k1.trans k2

theorem convert_spec {s : State V} {E : Nat → Nat} (hc : Counted s E) {a : Arg} (ha : Given s a) : ∃ s' t, convert a s = some (s', t) ∧ Keep s s' (fun p => E p + one t p) := by
  cases a with
  | value =>
    obtain ⟨k, i, -, -⟩ := make_spec (E := E) .array [] (hc.congr fun p => by simp) (by intro h; cases h)
    exact ⟨(make .array [] s).1, (make .array [] s).2, rfl, by rw [i]; exact k⟩
  | array o =>
    obtain ⟨-, n, h2, -⟩ := ha
    obtain ⟨s1, e1, k1, -⟩ := incref_spec hc ⟨n, h2⟩
    exact ⟨s1, o, by change (incref o s).map _ = _; rw [e1]; rfl, k1⟩

theorem count_cons_one (t : Nat) (ts : List Nat) (p : Nat) : (t :: ts).count p = one t p + ts.count p := by
  rw [← count_one, ← List.count_append]
  rfl

theorem converts_spec : ∀ (as : List Arg) {s : State V} {E : Nat → Nat}, Counted s E → (∀ a ∈ as, Given s a) →
    ∃ s' ts, converts as s = some (s', ts) ∧ Keep s s' (fun p => E p + ts.count p) ∧ ts.length = as.length := by
  intro as
  induction as with
  | nil => intro s E hc _; exact ⟨s, [], rfl, (Keep.refl hc).congr fun _ => by simp, rfl⟩
  | cons a as ih =>
    intro s E hc ha
    obtain ⟨s1, t, e1, k1⟩ := convert_spec hc (ha a (List.mem_cons_self ..))
    obtain ⟨s2, ts, e2, k2, l2⟩ := ih k1.counted fun b hb => k1.given hc (ha b (List.mem_cons_of_mem _ hb))
    refine ⟨s2, t :: ts, ?_, (k1.trans k2).congr fun p => ?_, by simp [l2]⟩
    · unfold converts
      rw [e1]
      change (converts as s1).bind _ = _
      rw [e2]
      rfl
    · rw [count_cons_one]
      omega

theorem one_self (o : Nat) : one o o = 1 := if_pos rfl

theorem unpack_spec {s : State V} {E : Nat → Nat} {t : Nat} (d : Nat) (hc : Counted s fun p => E p + one t p) :
    ∃ (s' : State V) (L : Nat → Nat), unpack t d s = some s' ∧ Keep s s' (fun p => E p + L p) ∧ (d ≠ 0 → ∀ p, L p = 0) ∧ (d = 0 → ∃ p, 0 < L p) := by
  by_cases hd : d = 0
  · obtain ⟨s1, r, e1, k1⟩ := view_spec hc (o := t) (hc.alive (by rw [one_self]; omega))
    obtain ⟨s2, e2, k2, -⟩ := decref_spec (s := s1) (E := fun p => E p + one r p) (o := t) (k1.counted.congr fun p => by omega)
    refine ⟨s2, one r, ?_, k1.trans k2, fun h => absurd hd h, fun _ => ⟨r, by rw [one_self]; omega⟩⟩
    unfold unpack
    rw [if_pos hd, e1]
    exact e2
  · obtain ⟨s2, e2, k2, -⟩ := decref_spec hc
    refine ⟨s2, fun _ => 0, ?_, k2, fun _ _ => rfl, fun h => absurd h hd⟩
    unfold unpack
    rw [if_neg hd]
    exact e2

theorem unpacks_spec : ∀ (ts ds : List Nat) {s : State V} {E : Nat → Nat}, ts.length = ds.length → Counted s (fun p => E p + ts.count p) →
    ∃ (s' : State V) (L : Nat → Nat), unpacks ts ds s = some s' ∧ Keep s s' (fun p => E p + L p) ∧ ((∀ d ∈ ds, d ≠ 0) → ∀ p, L p = 0) ∧ (¬ (∀ d ∈ ds, d ≠ 0) → ∃ p, 0 < L p) := by
  intro ts
  induction ts with
  | nil =>
    intro ds s E hl hc
    obtain rfl : ds = [] := List.length_eq_zero_iff.1 hl.symm
    exact ⟨s, fun _ => 0, rfl, (Keep.refl hc).congr fun _ => by simp, fun _ _ => rfl, fun h => absurd (by simp) h⟩
  | cons t ts ih =>
    intro ds s E hl hc
    cases ds with
    | nil => cases hl
    | cons d ds =>
      obtain ⟨s1, L1, e1, k1, z1, p1⟩ := unpack_spec (s := s) (E := fun p => E p + ts.count p) (t := t) d (hc.congr fun p => by rw [count_cons_one]; omega)
      obtain ⟨s2, L2, e2, k2, z2, p2⟩ := ih ds (s := s1) (E := fun p => E p + L1 p) (by simpa using hl) (k1.counted.congr fun p => by omega)
      refine ⟨s2, fun p => L1 p + L2 p, ?_, (k1.trans k2).congr fun p => by dsimp only; omega, fun h p => ?_, fun h => ?_⟩
      · unfold unpacks
        rw [e1]
        exact e2
      · change L1 p + L2 p = 0
        rw [z1 (h d (List.mem_cons_self ..)) p, z2 (fun x hx => h x (List.mem_cons_of_mem _ hx)) p]
      · by_cases hd : d = 0
        · obtain ⟨p, hp⟩ := p1 hd
          exact ⟨p, by dsimp only; omega⟩
        · obtain ⟨p, hp⟩ := p2 fun h' => h fun x hx => by
            rcases List.mem_cons.1 hx with rfl | hx
            · exact hd
            · exact h' x hx
          exact ⟨p, by dsimp only; omega⟩

/-- a result: the code loses a reference on the array -/
theorem result_spec {s : State V} {E : Nat → Nat} (b : Bool) (hc : Counted s E) : ∃ s' r a, result b s = some (s', r) ∧ Keep s s' (fun p => E p + one r p + one a p) := by
  obtain ⟨k, i, -, m⟩ := make_spec (E := E) .array [] (hc.congr fun p => by simp) (by intro h; cases h)
  cases b with
  | true =>
    obtain ⟨s1, r, e1, k1⟩ := view_spec k.counted ⟨_, m⟩
    refine ⟨s1, r, s.next, ?_, (k.trans k1).congr fun p => by omega⟩
    unfold result squeeze
    exact e1
  | false =>
    obtain ⟨s1, e1, k1, -⟩ := incref_spec k.counted ⟨_, m⟩
    refine ⟨s1, s.next, s.next, ?_, (k.trans k1).congr fun p => by omega⟩
    unfold result squeeze
    change (incref s.next (make .array [] s).1).map _ = _
    rw [e1]
    rfl

theorem reshape_spec {s : State V} {E : Nat → Nat} {t : Nat} (d : Nat) (hc : Counted s fun p => E p + one t p) :
    (d > 1 → reshape t d s = some (s, none)) ∧ (d = 1 → reshape t d s = some (s, some t))
    ∧ (d = 0 → ∃ s' r, reshape t d s = some (s', some r) ∧ Keep s s' (fun p => E p + one t p + one r p)) := by
  refine ⟨fun h => ?_, fun h => ?_, fun h => ?_⟩
  · unfold reshape
    rw [if_pos h]
  · unfold reshape
    rw [if_neg (by omega), if_neg (by omega)]
  · obtain ⟨s1, r, e1, k1⟩ := view_spec hc (o := t) (hc.alive (by rw [one_self]; omega))
    refine ⟨s1, r, ?_, k1⟩
    unfold reshape
    rw [if_neg (by omega), if_pos h, e1]
    rfl

end Verif.Lifetime
