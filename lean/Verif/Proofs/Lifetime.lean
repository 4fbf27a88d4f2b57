import Verif.Spec.Lifetime
import Mathlib.Algebra.BigOperators.Ring.Finset
import Mathlib.Algebra.Order.BigOperators.Group.Finset

/-!
# The elementary operations on references
-/
namespace Verif.Lifetime

set_option autoImplicit false

open Finset

variable {V : Type}

/-- one reference on `o` -/
def one (o : Nat) : Nat → Nat := fun p => if p = o then 1 else 0

/-- one object is replaced -/
def upd (s : State V) (p : Nat) (x : Option (Node V)) : State V := { s with node := fun q => if q = p then x else s.node q }

def cnt (x : Option (Node V)) (o : Nat) : Nat := (x.map fun n => n.refs.count o).getD 0

theorem upd_node (s : State V) (p : Nat) (x : Option (Node V)) (q : Nat) : (upd s p x).node q = if q = p then x else s.node q := rfl

theorem rcOf_upd (s : State V) (p : Nat) (x : Option (Node V)) (o : Nat) : rcOf (upd s p x) o = if o = p then (x.map Node.rc).getD 0 else rcOf s o := by
  unfold rcOf
  rw [upd_node]
  split_ifs <;> rfl

theorem owned_upd {s : State V} {p : Nat} (hp : p < s.next) (x : Option (Node V)) (o : Nat) : owned (upd s p x) o + cnt (s.node p) o = owned s o + cnt x o := by
  have h : ∀ t : State V, t.next = s.next → owned t o = cnt (t.node p) o + ∑ q ∈ (range s.next).erase p, cnt (t.node q) o := by
    intro t ht
    unfold owned
    rw [ht, ← Finset.add_sum_erase _ _ (mem_range.2 hp)]
    rfl
  rw [h (upd s p x) rfl, h s rfl, upd_node, if_pos rfl, sum_congr rfl fun q hq => by rw [upd_node, if_neg (ne_of_mem_erase hq)]]
  omega

theorem total_upd {s : State V} {p : Nat} (hp : p < s.next) (x : Option (Node V)) : total (upd s p x) + rcOf s p = total s + (x.map Node.rc).getD 0 := by
  have h : ∀ t : State V, t.next = s.next → total t = rcOf t p + ∑ q ∈ (range s.next).erase p, rcOf t q := by
    intro t ht
    unfold total
    rw [ht, ← Finset.add_sum_erase _ _ (mem_range.2 hp)]
  have hs : ∑ q ∈ (range s.next).erase p, rcOf (upd s p x) q = ∑ q ∈ (range s.next).erase p, rcOf s q :=
    sum_congr rfl fun q hq => by rw [rcOf_upd, if_neg (ne_of_mem_erase hq)]
  rw [h (upd s p x) rfl, h s rfl, rcOf_upd, if_pos rfl, hs]
  omega

theorem rcOf_some {s : State V} {o : Nat} {n : Node V} (h : s.node o = some n) : rcOf s o = n.rc := by
  unfold rcOf
  rw [h]
  rfl

theorem rcOf_none {s : State V} {o : Nat} (h : s.node o = none) : rcOf s o = 0 := by
  unfold rcOf
  rw [h]
  rfl

theorem Counted.congr {s : State V} {E E' : Nat → Nat} (h : Counted s E) (he : ∀ o, E o = E' o) : Counted s E' := ⟨h.fresh, h.pos, fun o => by rw [h.count, he]⟩

theorem Counted.alive {s : State V} {E : Nat → Nat} (h : Counted s E) {o : Nat} (ho : 0 < s.held o + owned s o + E o) : ∃ n, s.node o = some n := by
  cases hn : s.node o with
  | some n => exact ⟨n, rfl⟩
  | none =>
    have := h.count o
    rw [rcOf_none hn] at this
    omega

theorem Counted.lt {s : State V} {E : Nat → Nat} (h : Counted s E) {o : Nat} {n : Node V} (ho : s.node o = some n) : o < s.next := by
  by_contra hc
  rw [h.fresh o (Nat.le_of_not_lt hc)] at ho
  cases ho

theorem owned_pos {s : State V} {E : Nat → Nat} (h : Counted s E) {p o : Nat} {n : Node V} (hp : s.node p = some n) (ho : o ∈ n.refs) : 0 < owned s o := by
  have h1 : cnt (s.node p) o ≤ owned s o := by
    unfold owned
    exact single_le_sum (f := fun q => cnt (s.node q) o) (fun _ _ => Nat.zero_le _) (mem_range.2 (h.lt hp))
  have h2 : 0 < cnt (s.node p) o := by
    rw [hp]
    exact List.count_pos_iff.2 ho
  omega

theorem Counted.ref {s : State V} {E : Nat → Nat} (h : Counted s E) {p o : Nat} {n : Node V} (hp : s.node p = some n) (ho : o ∈ n.refs) : ∃ m, s.node o = some m :=
  h.alive (by have := owned_pos h hp ho; omega)

/-- existing objects are the same, up to the numbers of references on them, or have been destroyed -/
def Ext (s s' : State V) : Prop :=
  s.next ≤ s'.next ∧ ∀ p < s.next, ∀ n', s'.node p = some n' → ∃ n, s.node p = some n ∧ n'.kind = n.kind ∧ n'.refs = n.refs

theorem Ext.refl (s : State V) : Ext s s := ⟨le_rfl, fun _ _ n h => ⟨n, h, rfl, rfl⟩⟩

theorem Ext.trans {s s' s'' : State V} (h : Ext s s') (h' : Ext s' s'') : Ext s s'' := by
  refine ⟨h.1.trans h'.1, fun p hp n hn => ?_⟩
  obtain ⟨m, m1, m2, m3⟩ := h'.2 p (by have := h.1; omega) n hn
  obtain ⟨k, k1, k2, k3⟩ := h.2 p hp m m1
  exact ⟨k, k1, m2.trans k2, m3.trans k3⟩

/-- the effect of operations that do not change the pointers of instances: `E` and `E'` are the references in the hands of the code or of nobody -/
structure Keep (s s' : State V) (E' : Nat → Nat) : Prop where
  counted : Counted s' E'
  ext : Ext s s'
  held : s'.held = s.held
  names : s'.names = s.names
  typed : Typed s → Typed s'

theorem Keep.trans {s s' s'' : State V} {E E' : Nat → Nat} (h : Keep s s' E) (h' : Keep s' s'' E') : Keep s s'' E' :=
  ⟨h'.counted, h.ext.trans h'.ext, h'.held.trans h.held, h'.names.trans h.names, fun t => h'.typed (h.typed t)⟩

theorem Keep.refl {s : State V} {E : Nat → Nat} (h : Counted s E) : Keep s s E := ⟨h, Ext.refl s, rfl, rfl, id⟩

theorem Keep.congr {s s' : State V} {E E' : Nat → Nat} (h : Keep s s' E) (he : ∀ o, E o = E' o) : Keep s s' E' := ⟨h.counted.congr he, h.ext, h.held, h.names, h.typed⟩

/-- objects stay typed when objects are added, destroyed, or get references -/
theorem typed_ext {s s' : State V} {E : Nat → Nat} (h : Counted s E) (he : Ext s s') (ht : Typed s)
    (hn : ∀ p n, s.next ≤ p → s'.node p = some n → n.kind = .wrapper → n.refs = []) : Typed s' := by
  intro p n hp hk
  by_cases hlt : p < s.next
  · obtain ⟨m, m1, m2, m3⟩ := he.2 p hlt n hp
    rcases ht p m m1 (m2 ▸ hk) with e | ⟨c, c1, c2⟩
    · exact Or.inl (m3.trans e)
    · refine Or.inr ⟨c, m3.trans c1, fun q hq => ?_⟩
      obtain ⟨k, hk⟩ := h.ref m1 (show c ∈ m.refs by rw [c1]; exact List.mem_singleton_self c)
      obtain ⟨k', e1, e2, -⟩ := he.2 c (h.lt hk) q hq
      obtain ⟨v, hv⟩ := c2 k' e1
      exact ⟨v, e2.trans hv⟩
  · exact Or.inl (hn p n (Nat.le_of_not_lt hlt) hp hk)

/-- a new object takes over references -/
theorem make_spec {s : State V} {E : Nat → Nat} (k : Kind V) (refs : List Nat) (h : Counted s fun o => E o + refs.count o) (hk : k = .wrapper → refs = []) :
    Keep s (make k refs s).1 (fun o => E o + one s.next o) ∧ (make k refs s).2 = s.next ∧ (make k refs s).1.next = s.next + 1
      ∧ (make k refs s).1.node s.next = some ⟨1, k, refs⟩ := by
  have hz := h.count s.next
  rw [rcOf_none (h.fresh _ le_rfl)] at hz
  have hnode : ∀ q, (make k refs s).1.node q = if q = s.next then some ⟨1, k, refs⟩ else s.node q := fun _ => rfl
  have hext : Ext s (make k refs s).1 := ⟨Nat.le_succ _, fun p hp n hn => ⟨n, by rwa [hnode, if_neg (by omega)] at hn, rfl, rfl⟩⟩
  refine ⟨⟨⟨fun o ho => ?_, fun o n hn => ?_, fun o => ?_⟩, hext, rfl, rfl, fun ht => typed_ext h hext ht fun p n hp hn hw => ?_⟩, rfl, rfl, by rw [hnode, if_pos rfl]⟩
  · have ho : s.next + 1 ≤ o := ho
    rw [hnode, if_neg (by omega)]
    exact h.fresh o (by omega)
  · rw [hnode] at hn
    split_ifs at hn with e
    · cases hn
      exact le_rfl
    · exact h.pos o n hn
  · have hr : rcOf (make k refs s).1 o = if o = s.next then 1 else rcOf s o := by
      unfold rcOf
      rw [hnode]
      split_ifs <;> rfl
    have hw : owned (make k refs s).1 o = owned s o + refs.count o := by
      unfold owned
      change ∑ p ∈ range (s.next + 1), _ = _
      rw [sum_range_succ, hnode, if_pos rfl, sum_congr rfl fun q hq => by rw [hnode, if_neg (by have := mem_range.1 hq; omega)]]
      rfl
    change rcOf _ o = s.held o + _ + (E o + one s.next o)
    rw [hr, hw]
    unfold one
    have := h.count o
    split_ifs with e
    · subst e
      omega
    · omega
  · rw [hnode] at hn
    split_ifs at hn with e
    · cases hn
      exact hk hw
    · rw [h.fresh p hp] at hn
      cases hn

theorem incref_spec {s : State V} {E : Nat → Nat} {o : Nat} (h : Counted s E) (ho : ∃ n, s.node o = some n) :
    ∃ s', incref o s = some s' ∧ Keep s s' (fun p => E p + one o p) ∧ s'.next = s.next := by
  obtain ⟨n, hn⟩ := ho
  have hlt := h.lt hn
  refine ⟨upd s o (some { n with rc := n.rc + 1 }), by unfold incref upd; rw [hn]; rfl, ?_, rfl⟩
  have hext : Ext s (upd s o (some { n with rc := n.rc + 1 })) := by
    refine ⟨le_rfl, fun p hp m hm => ?_⟩
    rw [upd_node] at hm
    split_ifs at hm with e
    · cases hm
      exact ⟨n, e ▸ hn, rfl, rfl⟩
    · exact ⟨m, hm, rfl, rfl⟩
  refine ⟨⟨fun p hp => ?_, fun p m hm => ?_, fun p => ?_⟩, hext, rfl, rfl, fun ht => typed_ext h hext ht fun p m hp hm _ => ?_⟩
  · have hp : s.next ≤ p := hp
    rw [upd_node, if_neg (by omega)]
    exact h.fresh p hp
  · rw [upd_node] at hm
    split_ifs at hm
    · cases hm
      exact Nat.le_add_left 1 _
    · exact h.pos p m hm
  · have hw := owned_upd hlt (some { n with rc := n.rc + 1 }) p
    rw [hn] at hw
    have hw : owned (upd s o (some { n with rc := n.rc + 1 })) p = owned s p := Nat.add_right_cancel hw
    rw [rcOf_upd, hw]
    change _ = s.held p + _ + _
    have := h.count p
    unfold one
    split_ifs with e
    · subst e
      rw [rcOf_some hn] at this
      change n.rc + 1 = _
      omega
    · omega
  · rw [upd_node, if_neg (by omega), h.fresh p hp] at hm
    cases hm

theorem increfs_spec (l : List Nat) : ∀ {s : State V} {E : Nat → Nat}, Counted s E → (∀ o ∈ l, ∃ n, s.node o = some n) →
    ∃ s', increfs l s = some s' ∧ Keep s s' (fun p => E p + l.count p) ∧ s'.next = s.next ∧ ∀ p n, s.node p = some n → ∃ n', s'.node p = some n' ∧ n'.kind = n.kind ∧ n'.refs = n.refs := by
  induction l with
  | nil => intro s E h _; exact ⟨s, rfl, (Keep.refl h).congr fun _ => by simp, rfl, fun p n hn => ⟨n, hn, rfl, rfl⟩⟩
  | cons o l ih =>
    intro s E h ha
    obtain ⟨n, hn⟩ := ha o (List.mem_cons_self ..)
    obtain ⟨s1, e1, k1, n1⟩ := incref_spec h ⟨n, hn⟩
    have pres : ∀ p m, s.node p = some m → ∃ m', s1.node p = some m' ∧ m'.kind = m.kind ∧ m'.refs = m.refs := by
      intro p m hm
      unfold incref at e1
      rw [hn] at e1
      cases e1
      by_cases e : p = o
      · subst e
        rw [hn] at hm
        cases hm
        exact ⟨_, if_pos rfl, rfl, rfl⟩
      · exact ⟨m, (if_neg e).trans hm, rfl, rfl⟩
    obtain ⟨s2, e2, k2, n2, p2⟩ := ih k1.counted fun q hq => by
      obtain ⟨m, hm⟩ := ha q (List.mem_cons_of_mem _ hq)
      obtain ⟨m', hm', -⟩ := pres q m hm
      exact ⟨m', hm'⟩
    refine ⟨s2, by unfold increfs; rw [e1]; exact e2, (k1.trans k2).congr fun p => ?_, n2.trans n1, fun p m hm => ?_⟩
    · rw [List.count_cons]
      unfold one
      by_cases e : p = o
      · subst e
        simp
        omega
      · rw [if_neg e]
        have : (o == p) = false := by simpa using fun h => e h.symm
        simp [this]
    · obtain ⟨m', a1, a2, a3⟩ := pres p m hm
      obtain ⟨m'', b1, b2, b3⟩ := p2 p m' a1
      exact ⟨m'', b1, b2.trans a2, b3.trans a3⟩

/-- references that the code has are released -/
theorem release_spec : ∀ (f : Nat) (l : List Nat) {s : State V} {E : Nat → Nat}, Counted s (fun o => E o + l.count o) → total s ≤ f →
    ∃ s', release f l s = some s' ∧ Keep s s' E ∧ s'.next = s.next := by
  intro f
  induction f with
  | zero =>
    intro l s E h hf
    cases l with
    | nil => exact ⟨s, rfl, (Keep.refl h).congr fun _ => by simp, rfl⟩
    | cons o l =>
      exfalso
      have hc := h.count o
      obtain ⟨n, hn⟩ := h.alive (o := o) (by simp only [List.count_cons_self]; omega)
      have : rcOf s o ≤ total s := single_le_sum (f := fun q => rcOf s q) (fun _ _ => Nat.zero_le _) (mem_range.2 (h.lt hn))
      have := h.pos o n hn
      rw [rcOf_some hn] at *
      omega
  | succ f ih =>
    intro l s E h hf
    cases l with
    | nil => exact ⟨s, by unfold release; rfl, (Keep.refl h).congr fun _ => by simp, rfl⟩
    | cons o l =>
      obtain ⟨n, hn⟩ := h.alive (o := o) (by simp only [List.count_cons_self]; omega)
      have hlt := h.lt hn
      have hpos := h.pos o n hn
      have hx : ∀ x : Option (Node V), (∀ m, x = some m → m.kind = n.kind ∧ m.refs = n.refs ∧ 1 ≤ m.rc) → ∀ E' : Nat → Nat,
          (∀ p, (if p = o then (x.map Node.rc).getD 0 else rcOf s p) = s.held p + (owned s p + cnt x p - n.refs.count p) + E' p) → Keep s (upd s o x) E' := by
        intro x hx E' he
        have hext : Ext s (upd s o x) := by
          refine ⟨le_rfl, fun p hp m hm => ?_⟩
          rw [upd_node] at hm
          split_ifs at hm with e
          · exact ⟨n, e ▸ hn, (hx m hm).1, (hx m hm).2.1⟩
          · exact ⟨m, hm, rfl, rfl⟩
        refine ⟨⟨fun p hp => ?_, fun p m hm => ?_, fun p => ?_⟩, hext, rfl, rfl, fun ht => typed_ext h hext ht fun p m hp hm _ => ?_⟩
        · have hp : s.next ≤ p := hp
          rw [upd_node, if_neg (by omega)]
          exact h.fresh p hp
        · rw [upd_node] at hm
          split_ifs at hm
          · exact (hx m hm).2.2
          · exact h.pos p m hm
        · have hw := owned_upd hlt x p
          rw [hn] at hw
          have hw : owned (upd s o x) p + n.refs.count p = owned s p + cnt x p := hw
          rw [rcOf_upd, he p]
          change _ = s.held p + _ + _
          have : owned s p + cnt x p - n.refs.count p = owned (upd s o x) p := by omega
          rw [this]
        · rw [upd_node, if_neg (by omega), h.fresh p hp] at hm
          cases hm
      have hown : ∀ p, n.refs.count p ≤ owned s p := by
        intro p
        have : cnt (s.node o) p ≤ owned s p := single_le_sum (f := fun q => cnt (s.node q) p) (fun _ _ => Nat.zero_le _) (mem_range.2 hlt)
        rwa [hn] at this
      unfold release
      rw [hn]
      dsimp only
      by_cases h1 : n.rc ≤ 1
      · rw [if_pos h1]
        have k1 : Keep s (upd s o none) (fun p => E p + (n.refs ++ l).count p) := by
          refine hx none (by simp) _ fun p => ?_
          have hc := h.count p
          have ho := hown p
          rw [List.count_append]
          change _ = s.held p + (owned s p + 0 - _) + _
          rw [List.count_cons] at hc
          by_cases e : p = o
          · subst e
            rw [rcOf_some hn] at hc
            rw [if_pos rfl]
            simp only [beq_self_eq_true, if_true] at hc
            change 0 = _
            omega
          · have : (o == p) = false := by simpa using fun h => e h.symm
            rw [this] at hc
            rw [if_neg e]
            simp only [Bool.false_eq_true, if_false] at hc
            omega
        have ht := total_upd hlt (none : Option (Node V))
        rw [rcOf_some hn] at ht
        have ht : total (upd s o none) + n.rc = total s + 0 := ht
        obtain ⟨s', e1, e2, e3⟩ := ih (n.refs ++ l) k1.counted (by omega)
        exact ⟨s', e1, k1.trans e2, e3⟩
      · rw [if_neg h1]
        have k1 : Keep s (upd s o (some { n with rc := n.rc - 1 })) (fun p => E p + l.count p) := by
          refine hx _ (by rintro m ⟨⟩; exact ⟨rfl, rfl, by change 1 ≤ n.rc - 1; omega⟩) _ fun p => ?_
          have hc := h.count p
          have ho := hown p
          change _ = s.held p + (owned s p + n.refs.count p - _) + _
          rw [List.count_cons] at hc
          by_cases e : p = o
          · subst e
            rw [rcOf_some hn] at hc
            rw [if_pos rfl]
            simp only [beq_self_eq_true, if_true] at hc
            change n.rc - 1 = _
            omega
          · have : (o == p) = false := by simpa using fun h => e h.symm
            rw [this] at hc
            rw [if_neg e]
            simp only [Bool.false_eq_true, if_false] at hc
            omega
        have ht := total_upd hlt (some { n with rc := n.rc - 1 })
        rw [rcOf_some hn] at ht
        have ht : total (upd s o (some { n with rc := n.rc - 1 })) + n.rc = total s + (n.rc - 1) := ht
        obtain ⟨s', e1, e2, e3⟩ := ih l k1.counted (by omega)
        exact ⟨s', e1, k1.trans e2, e3⟩

theorem count_one (o p : Nat) : [o].count p = one o p := by
  unfold one
  rw [List.count_singleton]
  by_cases e : p = o
  · subst e
    simp
  · have : (o == p) = false := by simpa using fun h => e h.symm
    simp [this, e]

theorem decref_spec {s : State V} {E : Nat → Nat} {o : Nat} (h : Counted s fun p => E p + one o p) : ∃ s', decref o s = some s' ∧ Keep s s' E ∧ s'.next = s.next :=
  release_spec _ [o] (h.congr fun p => by rw [count_one]) le_rfl

/-- the Python program gets a reference from the code -/
theorem hold_spec {s : State V} {E : Nat → Nat} {o : Nat} (h : Counted s fun p => E p + one o p) : Counted (hold o s) E := by
  refine ⟨h.fresh, h.pos, fun p => ?_⟩
  have := h.count p
  change rcOf s p = (if p = o then s.held p + 1 else s.held p) + owned s p + E p
  unfold one at this
  split_ifs at this ⊢ <;> omega

theorem unhold_spec {s : State V} {E : Nat → Nat} {o : Nat} (h : Counted s E) (ho : 0 < s.held o) : Counted (unhold o s) fun p => E p + one o p := by
  refine ⟨h.fresh, h.pos, fun p => ?_⟩
  have := h.count p
  change rcOf s p = (if p = o then s.held p - 1 else s.held p) + owned s p + (E p + one o p)
  unfold one
  by_cases e : p = o
  · subst e
    simp only [if_true]
    omega
  · simp only [if_neg e]
    omega

end Verif.Lifetime
