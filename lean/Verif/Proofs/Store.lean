import Verif.Proofs.Sort
import Verif.Spec.Store

/-! # Filling a scheduler: the invariant -/
namespace Verif.Store

theorem regrow_lt {α : Type} {junk old : Nat → α} {c i : Nat} (h : i < c) : regrow junk old c i = old i := by
  simp [regrow, h]

theorem F_congr {key key' : Nat → Nat} {z n : Nat} (h : ∀ i < n, key i = key' i) : F key z n = F key' z n := by
  unfold F
  apply List.filter_congr
  intro i hi
  rw [h i (List.mem_range.1 hi)]

theorem entries_congr {L L' : Links} (hc : L.count = L'.count) (hk : ∀ i < L.count, L.key i = L'.key i)
    (hd : ∀ i < L.count, L.data i = L'.data i) (t : Nat) : entries L t = entries L' t := by
  unfold entries
  rw [← hc, ← F_congr hk]
  apply List.map_congr_left
  intro i hi
  exact hd i (List.mem_range.1 (List.mem_filter.1 hi).1)

theorem entries_none {L : Links} {nb t : Nat} (hk : ∀ i < L.count, L.key i < nb) (ht : nb ≤ t) : entries L t = [] := by
  unfold entries F
  rw [List.map_eq_nil_iff, List.filter_eq_nil_iff]
  intro i hi
  have := hk i (List.mem_range.1 hi)
  simp only [decide_eq_true_eq]; omega

structure Inv (ops : List Op) (s : Store) : Prop where
  tpos : 0 < s.tsize
  tle : s.count ≤ s.tsize
  tcount : s.count = (tasksOf ops).length
  task : ∀ i a b c d, (tasksOf ops)[i]? = some (a, b, c, d) →
    (s.tasks i).type = a ∧ (s.tasks i).flags = b ∧ (s.tasks i).cost = c ∧
    (s.tasks i).data + d.length ≤ s.dcount ∧ ∀ j < d.length, s.bytes ((s.tasks i).data + j) = d.getD j 0
  sep : ∀ i j a b c d, i < j → j < s.count → (tasksOf ops)[i]? = some (a, b, c, d) →
    (s.tasks i).data + d.length ≤ (s.tasks j).data
  nr : ∀ k t, t < s.count → (s.tasks t).nr k = (linksOf k t ops).length
  rpos : 0 < s.rsize
  rle : s.rcount ≤ s.rsize
  rcount : s.rcount = (resOf ops).length
  res : ∀ i a b, (resOf ops)[i]? = some (a, b) → s.res i = ⟨a, b⟩
  lpos : ∀ k, 0 < (s.links k).size
  lle : ∀ k, (s.links k).count ≤ (s.links k).size
  lkey : ∀ k, ∀ i < (s.links k).count, (s.links k).key i < s.count
  lent : ∀ k t, entries (s.links k) t = linksOf k t ops
  dle : s.dcount ≤ s.dsize
  dpos : 8000 ≤ s.dsize

theorem inv_init (J : Junk) : Inv [] (init J) := by
  constructor <;> simp [init, tasksOf, resOf, linksOf, entries, F_zero]

theorem tasksOf_append (l m) : tasksOf (l ++ m) = tasksOf l ++ tasksOf m := List.filterMap_append
theorem resOf_append (l m) : resOf (l ++ m) = resOf l ++ resOf m := List.filterMap_append
theorem linksOf_append (k t l m) : linksOf k t (l ++ m) = linksOf k t l ++ linksOf k t m := List.filterMap_append

theorem getElem?_lt {α} {l : List α} {i : Nat} {x : α} (h : l[i]? = some x) : i < l.length :=
  (List.getElem?_eq_some_iff.1 h).1

/-- growing an array changes nothing that is observable -/
theorem inv_growT {ops s} (I : Inv ops s) (n : Nat) (h : s.tsize ≤ n) (J : Junk) :
    Inv ops { s with tsize := n, tasks := regrow J.tasks s.tasks s.count } := by
  have hr : ∀ i, i < s.count → regrow J.tasks s.tasks s.count i = s.tasks i := fun i hi => regrow_lt hi
  have hlt : ∀ {i x}, (tasksOf ops)[i]? = some x → i < s.count := fun hx => by rw [I.tcount]; exact getElem?_lt hx
  exact
    { I with
      tpos := by have := I.tpos; dsimp only; omega
      tle := by have := I.tle; dsimp only; omega
      task := by
        intro i a b c d hx
        dsimp only
        rw [hr i (hlt hx)]
        exact I.task i a b c d hx
      sep := by
        intro i j a b c d hij hj hx
        dsimp only at hj ⊢
        rw [hr i (hlt hx), hr j hj]
        exact I.sep i j a b c d hij hj hx
      nr := by
        intro k t ht
        dsimp only at ht ⊢
        rw [hr t ht]
        exact I.nr k t ht }

theorem inv_growR {ops s} (I : Inv ops s) (n : Nat) (h : s.rsize ≤ n) (J : Junk) :
    Inv ops { s with rsize := n, res := regrow J.res s.res s.rcount } :=
  { I with
    rpos := by have := I.rpos; dsimp only; omega
    rle := by have := I.rle; dsimp only; omega
    res := by
      intro i a b hx
      dsimp only
      rw [regrow_lt (by rw [I.rcount]; exact getElem?_lt hx)]
      exact I.res i a b hx }

theorem inv_growD {ops s} (I : Inv ops s) (n : Nat) (h : s.dsize ≤ n) (J : Junk) :
    Inv ops { s with dsize := n, bytes := regrow J.bytes s.bytes s.dcount } :=
  { I with
    task := by
      intro i a b c d hx
      obtain ⟨h1, h2, h3, h4, h5⟩ := I.task i a b c d hx
      refine ⟨h1, h2, h3, h4, ?_⟩
      intro j hj
      dsimp only
      rw [regrow_lt (by omega)]
      exact h5 j hj
    dle := by have := I.dle; dsimp only; omega
    dpos := by have := I.dpos; dsimp only; omega }

/-- replacing a link table by one with the same entries changes nothing that is observable -/
theorem inv_links {ops s} (I : Inv ops s) (l : Kind → Links) (h1 : ∀ k, 0 < (l k).size)
    (h2 : ∀ k, (l k).count ≤ (l k).size) (h3 : ∀ k, ∀ i < (l k).count, (l k).key i < s.count)
    (h4 : ∀ k t, entries (l k) t = entries (s.links k) t) : Inv ops { s with links := l } :=
  { I with
    lpos := h1
    lle := h2
    lkey := h3
    lent := fun k t => (h4 k t).trans (I.lent k t) }

theorem inv_growL {ops s} (I : Inv ops s) (k0 : Kind) (n : Nat) (h : (s.links k0).size ≤ n) (J : Junk) :
    Inv ops { s with links := Function.update s.links k0 { s.links k0 with
      size := n, data := regrow (J.ints k0) (s.links k0).data (s.links k0).count,
      key := regrow (J.keys k0) (s.links k0).key (s.links k0).count } } := by
  apply inv_links I
  · intro k
    rw [Function.update_apply]
    split
    · have := I.lpos k0; dsimp only; omega
    · exact I.lpos k
  · intro k
    rw [Function.update_apply]
    split
    · have := I.lle k0; dsimp only; omega
    · exact I.lle k
  · intro k i
    rw [Function.update_apply]
    split
    · intro hi
      dsimp only at hi ⊢
      rw [regrow_lt hi]; exact I.lkey k0 i hi
    · exact I.lkey k i
  · intro k t
    by_cases hk : k = k0
    · subst hk
      rw [Function.update_self]
      apply entries_congr
      · rfl
      · intro i hi; exact regrow_lt hi
      · intro i hi; exact regrow_lt hi
    · rw [Function.update_of_ne hk]

theorem inv_addres {ops s s'} (I : Inv ops s) (J : Junk) (o p : Option Nat) (h : addres J s o p = some s') :
    Inv (ops ++ [.res o p]) s' := by
  have key : ∀ s1 : Store, Inv ops s1 → s1.rcount < s1.rsize →
      Inv (ops ++ [.res o p]) { s1 with res := Function.update s1.res s1.rcount ⟨o, p⟩, rcount := s1.rcount + 1 } := by
    intro s1 I1 hlt
    have e1 : tasksOf (ops ++ [.res o p]) = tasksOf ops := by rw [tasksOf_append]; simp [tasksOf]
    have e2 : resOf (ops ++ [.res o p]) = resOf ops ++ [(o, p)] := by rw [resOf_append]; simp [resOf]
    have e3 : ∀ k t, linksOf k t (ops ++ [.res o p]) = linksOf k t ops := by
      intro k t; rw [linksOf_append]; simp [linksOf]
    exact
      { tpos := I1.tpos, tle := I1.tle, tcount := by rw [e1]; exact I1.tcount
        task := by rw [e1]; exact I1.task
        sep := by rw [e1]; exact I1.sep
        nr := by intro k t; rw [e3]; exact I1.nr k t
        rpos := I1.rpos
        rle := by dsimp only; omega
        rcount := by rw [e2]; simp [I1.rcount]
        res := by
          intro i a b hx
          dsimp only
          rw [e2, List.getElem?_append] at hx
          split at hx
          · rename_i hi
            rw [← I1.rcount] at hi
            rw [Function.update_of_ne (by omega)]
            exact I1.res i a b hx
          · rename_i hi
            obtain ⟨h1, h2⟩ := List.getElem?_eq_some_iff.1 hx
            have : i = s1.rcount := by rw [I1.rcount]; simp at h1; omega
            subst this
            rw [Function.update_self]
            simp at h2
            rw [h2.1, h2.2]
        lpos := I1.lpos, lle := I1.lle, lkey := I1.lkey
        lent := by intro k t; rw [e3]; exact I1.lent k t
        dle := I1.dle, dpos := I1.dpos }
  unfold addres at h
  dsimp only at h
  split at h
  · split at h
    · simp only [Option.some.injEq] at h
      subst h
      exact key _ (inv_growR I _ (by omega) J) (by assumption)
    · cases h
  · split at h
    · simp only [Option.some.injEq] at h
      subst h
      exact key _ I (by assumption)
    · cases h

theorem inv_addlink {ops s s'} (I : Inv ops s) (J : Junk) (k0 : Kind) (t0 v : Nat)
    (h : addlink J s k0 t0 v = some s') : Inv (ops ++ [.link k0 t0 v]) s' := by
  have key : ∀ s1 : Store, Inv ops s1 → (s1.links k0).count < (s1.links k0).size → t0 < s1.count →
      Inv (ops ++ [.link k0 t0 v]) { s1 with
        links := Function.update s1.links k0 { s1.links k0 with
          data := Function.update (s1.links k0).data (s1.links k0).count v,
          key := Function.update (s1.links k0).key (s1.links k0).count t0, count := (s1.links k0).count + 1 }
        tasks := Function.update s1.tasks t0 { s1.tasks t0 with
          nr := Function.update (s1.tasks t0).nr k0 ((s1.tasks t0).nr k0 + 1) } } := by
    intro s1 I1 hlt ht0
    have e1 : tasksOf (ops ++ [.link k0 t0 v]) = tasksOf ops := by rw [tasksOf_append]; simp [tasksOf]
    have e2 : resOf (ops ++ [.link k0 t0 v]) = resOf ops := by rw [resOf_append]; simp [resOf]
    have e3 : ∀ k t, linksOf k t (ops ++ [.link k0 t0 v])
        = linksOf k t ops ++ (if k0 = k ∧ t0 = t then [v] else []) := by
      intro k t; rw [linksOf_append]
      congr 1
      by_cases hk : k0 = k ∧ t0 = t <;> simp [linksOf, hk]
    have hproj : ∀ i, (Function.update s1.tasks t0 { s1.tasks t0 with
          nr := Function.update (s1.tasks t0).nr k0 ((s1.tasks t0).nr k0 + 1) } i).type = (s1.tasks i).type ∧
        (Function.update s1.tasks t0 { s1.tasks t0 with
          nr := Function.update (s1.tasks t0).nr k0 ((s1.tasks t0).nr k0 + 1) } i).flags = (s1.tasks i).flags ∧
        (Function.update s1.tasks t0 { s1.tasks t0 with
          nr := Function.update (s1.tasks t0).nr k0 ((s1.tasks t0).nr k0 + 1) } i).cost = (s1.tasks i).cost ∧
        (Function.update s1.tasks t0 { s1.tasks t0 with
          nr := Function.update (s1.tasks t0).nr k0 ((s1.tasks t0).nr k0 + 1) } i).data = (s1.tasks i).data := by
      intro i
      rw [Function.update_apply]
      split
      · rename_i hi; subst hi; simp
      · simp
    exact
      { tpos := I1.tpos, tle := I1.tle, tcount := by rw [e1]; exact I1.tcount
        task := by
          intro i a b c d hx
          rw [e1] at hx
          dsimp only
          rw [(hproj i).1, (hproj i).2.1, (hproj i).2.2.1, (hproj i).2.2.2]
          exact I1.task i a b c d hx
        sep := by
          intro i j a b c d hij hj hx
          rw [e1] at hx
          dsimp only at hj ⊢
          rw [(hproj i).2.2.2, (hproj j).2.2.2]
          exact I1.sep i j a b c d hij hj hx
        nr := by
          intro k t ht
          dsimp only at ht ⊢
          have hn := I1.nr k t ht
          rw [e3, Function.update_apply]
          by_cases htt : t = t0
          · subst htt
            rw [if_pos rfl]
            dsimp only
            rw [Function.update_apply]
            by_cases hk : k = k0
            · subst hk; simp [hn]
            · have : ¬ k0 = k := fun e => hk e.symm
              simp [hk, this, hn]
          · have : ¬ t0 = t := fun e => htt e.symm
            simp [htt, this, hn]
        rpos := I1.rpos, rle := I1.rle, rcount := by rw [e2]; exact I1.rcount
        res := by rw [e2]; exact I1.res
        lpos := by
          intro k; dsimp only; rw [Function.update_apply]
          split
          · exact I1.lpos k0
          · exact I1.lpos k
        lle := by
          intro k; dsimp only; rw [Function.update_apply]
          split
          · exact hlt
          · exact I1.lle k
        lkey := by
          intro k i; dsimp only; rw [Function.update_apply]
          split
          · dsimp only
            intro hi
            rw [Function.update_apply]
            split
            · exact ht0
            · exact I1.lkey k0 i (by omega)
          · exact I1.lkey k i
        lent := by
          intro k t
          rw [e3, ← I1.lent]
          dsimp only
          by_cases hk : k = k0
          · subst hk
            rw [Function.update_self]
            unfold entries
            dsimp only
            rw [F_succ, List.map_append, Function.update_self]
            congr 1
            · rw [F_congr (key' := (s1.links k).key) (fun i hi => Function.update_of_ne (by omega) _ _)]
              apply List.map_congr_left
              intro i hi
              have := List.mem_range.1 (List.mem_filter.1 hi).1
              rw [Function.update_of_ne (by omega)]
            · by_cases htt : t0 = t <;> simp [htt]
          · have : ¬ k0 = k := fun e => hk e.symm
            rw [Function.update_of_ne hk]
            simp [this]
        dle := I1.dle, dpos := I1.dpos }
  unfold addlink at h
  dsimp only at h
  by_cases hc : (s.links k0).count = (s.links k0).size
  · rw [if_pos hc] at h
    dsimp only at h
    split at h
    · rename_i hh
      simp only [Option.some.injEq] at h
      have := key _ (inv_growL I k0 ((s.links k0).size * 2) (by omega) J) (by simpa using hh.1) hh.2
      simp only [Function.update_self, Function.update_idem] at this
      rw [h] at this
      exact this
    · cases h
  · rw [if_neg hc] at h
    split at h
    · rename_i hh
      simp only [Option.some.injEq] at h
      subst h
      exact key _ I hh.1 hh.2
    · cases h

theorem roundUp_ge (n : Nat) : n ≤ roundUp n := by unfold roundUp; omega

theorem blit_self (bytes : Nat → Nat) (pos : Nat) (p : List Nat) {j : Nat} (hj : j < p.length) :
    blit bytes pos p (pos + j) = p.getD j 0 := by
  unfold blit
  rw [if_pos (by omega)]
  congr 1; omega

theorem blit_other (bytes : Nat → Nat) (pos : Nat) (p : List Nat) {i : Nat} (hi : i < pos) :
    blit bytes pos p i = bytes i := by
  unfold blit
  rw [if_neg (by omega)]

theorem inv_addtask {ops s s'} (I : Inv ops s) (J : Junk) (ty fl : Nat) (co : Int) (pl : List Nat)
    (h : addtask J s ty fl co pl = some s') (hfit : roundUp pl.length ≤ 8000) : Inv (ops ++ [.task ty fl co pl]) s' := by
  have key : ∀ s1 : Store, Inv ops s1 → s1.count < s1.tsize → s1.dcount + roundUp pl.length ≤ s1.dsize →
      Inv (ops ++ [.task ty fl co pl]) { s1 with
        tasks := Function.update s1.tasks s1.count
          { type := ty, flags := fl, cost := co, data := s1.dcount, nr := fun _ => 0 }
        bytes := blit s1.bytes s1.dcount pl
        dcount := s1.dcount + roundUp pl.length
        count := s1.count + 1 } := by
    intro s1 I1 hlt hd
    have e1 : tasksOf (ops ++ [.task ty fl co pl]) = tasksOf ops ++ [(ty, fl, co, pl)] := by
      rw [tasksOf_append]; simp [tasksOf]
    have e2 : resOf (ops ++ [.task ty fl co pl]) = resOf ops := by rw [resOf_append]; simp [resOf]
    have e3 : ∀ k t, linksOf k t (ops ++ [.task ty fl co pl]) = linksOf k t ops := by
      intro k t; rw [linksOf_append]; simp [linksOf]
    have hge := roundUp_ge pl.length
    exact
      { tpos := I1.tpos, tle := by dsimp only; omega
        tcount := by rw [e1]; simp [I1.tcount]
        task := by
          intro i a b c d hx
          rw [e1, List.getElem?_append] at hx
          dsimp only
          split at hx
          · rename_i hi
            rw [← I1.tcount] at hi
            obtain ⟨h1, h2, h3, h4, h5⟩ := I1.task i a b c d hx
            rw [Function.update_of_ne (by omega)]
            refine ⟨h1, h2, h3, by omega, ?_⟩
            intro j hj
            rw [blit_other _ _ _ (by omega)]
            exact h5 j hj
          · obtain ⟨h1, h2⟩ := List.getElem?_eq_some_iff.1 hx
            have : i = s1.count := by rw [I1.tcount]; simp at h1; omega
            subst this
            rw [Function.update_self]
            simp at h2
            obtain ⟨rfl, rfl, rfl, rfl⟩ := h2
            refine ⟨rfl, rfl, rfl, by dsimp only; omega, ?_⟩
            intro j hj
            dsimp only
            exact blit_self _ _ _ hj
        sep := by
          intro i j a b c d hij hj hx
          dsimp only at hj ⊢
          have hi : i < s1.count := by omega
          rw [e1, List.getElem?_append_left (by rw [← I1.tcount]; exact hi)] at hx
          rw [Function.update_of_ne (by omega)]
          rw [Function.update_apply]
          split
          · dsimp only
            exact (I1.task i a b c d hx).2.2.2.1
          · exact I1.sep i j a b c d hij (by omega) hx
        nr := by
          intro k t ht
          dsimp only at ht ⊢
          rw [e3, Function.update_apply]
          split
          · rename_i htc
            subst htc
            rw [← I1.lent, entries_none (I1.lkey k) (le_refl _)]
            rfl
          · exact I1.nr k t (by omega)
        rpos := I1.rpos, rle := I1.rle, rcount := by rw [e2]; exact I1.rcount
        res := by rw [e2]; exact I1.res
        lpos := I1.lpos, lle := I1.lle
        lkey := by intro k i hi; have := I1.lkey k i hi; dsimp only; omega
        lent := by intro k t; rw [e3]; exact I1.lent k t
        dle := hd, dpos := I1.dpos }
  unfold addtask at h
  dsimp only at h
  have hd := I.dle
  have hdp := I.dpos
  have htp := I.tpos
  have htl := I.tle
  by_cases hc : s.count = s.tsize
  · have I1 := inv_growT I (s.tsize * 2) (by omega) J
    rw [if_pos hc] at h
    dsimp only at h
    split at h
    · rename_i hg
      have I2 := inv_growD I1 (s.dsize * 2) (by dsimp only; omega) J
      split at h
      · simp only [Option.some.injEq] at h
        subst h
        exact key _ I2 (by dsimp only; omega) (by dsimp only; omega)
      · cases h
    · split at h
      · simp only [Option.some.injEq] at h
        subst h
        exact key _ I1 (by dsimp only; omega) (by dsimp only; omega)
      · cases h
  · rw [if_neg hc] at h
    split at h
    · have I2 := inv_growD I (s.dsize * 2) (by omega) J
      split at h
      · simp only [Option.some.injEq] at h
        subst h
        exact key _ I2 (by dsimp only; omega) (by dsimp only; omega)
      · cases h
    · split at h
      · simp only [Option.some.injEq] at h
        subst h
        exact key _ I (by omega) (by omega)
      · cases h

theorem addtask_ok {ops s} (I : Inv ops s) (J : Junk) (ty fl : Nat) (co : Int) (pl : List Nat)
    (hfit : roundUp pl.length ≤ 8000) : (addtask J s ty fl co pl).isSome = true := by
  have hd := I.dle
  have hdp := I.dpos
  have htp := I.tpos
  have htl := I.tle
  have hge := roundUp_ge pl.length
  unfold addtask
  dsimp only
  split <;> split <;> (rw [if_pos (by first | omega | (dsimp only at *; omega))]; rfl)

theorem inv_ensure {ops s} (I : Inv ops s) (J : Junk) (nt nr nd nl nu nb : Nat) :
    Inv (ops ++ [.reserve nt nr nd nl nu nb]) (ensure J s nt nr nd nl nu nb) := by
  have hops : ∀ s1, Inv ops s1 → Inv (ops ++ [.reserve nt nr nd nl nu nb]) s1 := by
    intro s1 I1
    have e1 : tasksOf (ops ++ [.reserve nt nr nd nl nu nb]) = tasksOf ops := by rw [tasksOf_append]; simp [tasksOf]
    have e2 : resOf (ops ++ [.reserve nt nr nd nl nu nb]) = resOf ops := by rw [resOf_append]; simp [resOf]
    have e3 : ∀ k t, linksOf k t (ops ++ [.reserve nt nr nd nl nu nb]) = linksOf k t ops := by
      intro k t; rw [linksOf_append]; simp [linksOf]
    exact
      { I1 with
        tcount := by rw [e1]; exact I1.tcount
        task := by rw [e1]; exact I1.task
        sep := by rw [e1]; exact I1.sep
        nr := by intro k t; rw [e3]; exact I1.nr k t
        rcount := by rw [e2]; exact I1.rcount
        res := by rw [e2]; exact I1.res
        lent := by intro k t; rw [e3]; exact I1.lent k t }
  apply hops
  unfold ensure
  dsimp only
  have I1 : Inv ops (if s.tsize < nt then { s with tsize := nt, tasks := regrow J.tasks s.tasks s.count } else s) := by
    split
    · exact inv_growT I _ (by omega) J
    · exact I
  generalize (if s.tsize < nt then { s with tsize := nt, tasks := regrow J.tasks s.tasks s.count } else s) = s1 at I1
  have I2 : Inv ops (if s1.rsize < nr then { s1 with rsize := nr, res := regrow J.res s1.res s1.rcount } else s1) := by
    split
    · exact inv_growR I1 _ (by omega) J
    · exact I1
  generalize (if s1.rsize < nr then { s1 with rsize := nr, res := regrow J.res s1.res s1.rcount } else s1) = s2 at I2
  have I3 : ∀ n : Kind → Nat, Inv ops { s2 with links := fun k => ensureLinks J k (s2.links k) (n k) } := by
    intro n
    apply inv_links I2
    · intro k; unfold ensureLinks
      split
      · dsimp only; omega
      · exact I2.lpos k
    · intro k; unfold ensureLinks
      have := I2.lle k
      split
      · dsimp only; omega
      · exact this
    · intro k i; unfold ensureLinks
      split
      · dsimp only
        intro hi; rw [regrow_lt hi]; exact I2.lkey k i hi
      · exact I2.lkey k i
    · intro k t; unfold ensureLinks
      split
      · apply entries_congr
        · rfl
        · intro i hi; exact regrow_lt hi
        · intro i hi; exact regrow_lt hi
      · rfl
  have I4 := I3 (fun | .deps => nd | .locks => nl | .uses => nu)
  split
  · exact inv_growD I4 _ (by dsimp only at *; omega) J
  · exact I4

theorem inv_prepare {ops s} (I : Inv ops s) (J : Junk) :
    ∃ s', sortAll J s = some s' ∧ Inv (ops ++ [.prepare]) s' ∧
      ∀ k t, t < s'.count → view s' k t = linksOf k t (ops ++ [.prepare]) := by
  have e1 : tasksOf (ops ++ [.prepare]) = tasksOf ops := by rw [tasksOf_append]; simp [tasksOf]
  have e2 : resOf (ops ++ [.prepare]) = resOf ops := by rw [resOf_append]; simp [resOf]
  have e3 : ∀ k t, linksOf k t (ops ++ [.prepare]) = linksOf k t ops := by
    intro k t; rw [linksOf_append]; simp [linksOf]
  have hs : ∀ k, _ := fun k => sort_spec J k s.count (s.links k) (I.lkey k)
  obtain ⟨d, hd, hd1, hd2, hd3, hd4, hd5⟩ := hs .deps
  obtain ⟨l, hl, hl1, hl2, hl3, hl4, hl5⟩ := hs .locks
  obtain ⟨u, hu, hu1, hu2, hu3, hu4, hu5⟩ := hs .uses
  have hstart : ∀ k t, t ≤ s.count → off s k t = start (s.links k).key (s.links k).count t := by
    intro k t
    induction t with
    | zero => intro _; rw [start_zero]; rfl
    | succ t ih =>
      intro ht
      rw [start_succ, off, ih (by omega), I.nr k t (by omega), ← I.lent]
      simp [entries]
  let l' : Kind → Links := fun | .deps => d | .locks => l | .uses => u
  have hl' : ∀ k, (l' k).size = (s.links k).size ∧ (l' k).count = (s.links k).count ∧
      (∀ i < (l' k).count, (l' k).key i < s.count) ∧ (∀ t < s.count, entries (l' k) t = entries (s.links k) t) ∧
      (∀ t < s.count, (List.range (entries (s.links k) t).length).map
        (fun m => (l' k).data (start (s.links k).key (s.links k).count t + m)) = entries (s.links k) t) := by
    intro k
    cases k
    · exact ⟨hd1, hd2, hd3, hd4, hd5⟩
    · exact ⟨hl1, hl2, hl3, hl4, hl5⟩
    · exact ⟨hu1, hu2, hu3, hu4, hu5⟩
  have I' : Inv ops { s with links := l' } := by
    apply inv_links I
    · intro k; rw [(hl' k).1]; exact I.lpos k
    · intro k; rw [(hl' k).1, (hl' k).2.1]; exact I.lle k
    · intro k; exact (hl' k).2.2.1
    · intro k t
      by_cases ht : t < s.count
      · exact (hl' k).2.2.2.1 t ht
      · rw [entries_none (hl' k).2.2.1 (by omega), entries_none (I.lkey k) (by omega)]
  refine ⟨{ s with links := l' }, ?_, ?_, ?_⟩
  · unfold sortAll
    rw [hd, hl, hu]
    rfl
  · exact
      { I' with
        tcount := by rw [e1]; exact I'.tcount
        task := by rw [e1]; exact I'.task
        sep := by rw [e1]; exact I'.sep
        nr := by intro k t; rw [e3]; exact I'.nr k t
        rcount := by rw [e2]; exact I'.rcount
        res := by rw [e2]; exact I'.res
        lent := by intro k t; rw [e3]; exact I'.lent k t }
  · intro k t ht
    rw [e3]
    unfold view
    dsimp only at ht ⊢
    have hoff : off { s with links := l' } k t = off s k t := by
      clear ht
      induction t with
      | zero => rfl
      | succ t ih => rw [off, off, ih]
    rw [hoff, hstart k t (by omega), I.nr k t ht, ← I.lent, (hl' k).2.2.2.2 t ht]

theorem inv_step {ops s s'} (I : Inv ops s) (J : Junk) (o : Op) (h : exec1 J s o = some s')
    (hfit : PayloadsAtMost 8000 [o]) : Inv (ops ++ [o]) s' := by
  cases o with
  | task a b c d =>
    refine inv_addtask I J a b c d h ?_
    have := hfit a b c d (by simp)
    unfold roundUp; omega
  | res a b => exact inv_addres I J a b h
  | link k t v => exact inv_addlink I J k t v h
  | reserve a b c d e f =>
    simp only [exec1, Option.some.injEq] at h
    subst h
    exact inv_ensure I J a b c d e f
  | prepare =>
    obtain ⟨s1, h1, I1, -⟩ := inv_prepare I J
    simp only [exec1] at h
    rw [h1] at h
    cases h
    exact I1

theorem step_ok {ops s} (I : Inv ops s) (J : Junk) (o : Op) (hfit : PayloadsAtMost 8000 [o])
    (hv : ∀ k t v, o = .link k t v → t < s.count) : ∃ s', exec1 J s o = some s' := by
  cases o with
  | task a b c d =>
    apply Option.isSome_iff_exists.1
    apply addtask_ok I
    have := hfit a b c d (by simp)
    unfold roundUp; omega
  | res a b =>
    have h1 := I.rpos
    have h2 := I.rle
    simp only [exec1, addres]
    split
    · rw [if_pos (by dsimp only; omega)]; exact ⟨_, rfl⟩
    · rw [if_pos (by omega)]; exact ⟨_, rfl⟩
  | link k t v =>
    have h1 := I.lpos k
    have h2 := I.lle k
    have h3 := hv k t v rfl
    simp only [exec1, addlink]
    by_cases hc : (s.links k).count = (s.links k).size
    · rw [if_pos hc, if_pos (by dsimp only; omega)]; exact ⟨_, rfl⟩
    · rw [if_neg hc, if_pos (by omega)]; exact ⟨_, rfl⟩
  | reserve a b c d e f => exact ⟨_, rfl⟩
  | prepare =>
    obtain ⟨s1, h1, -, -⟩ := inv_prepare I J
    exact ⟨s1, h1⟩

theorem exec_inv (l : List (Op × Junk)) : ∀ {ops s s'}, Inv ops s → exec l s = some s' →
    PayloadsAtMost 8000 (l.map Prod.fst) → Inv (ops ++ l.map Prod.fst) s' := by
  induction l with
  | nil =>
    intro ops s s' I h _
    simp only [exec, Option.some.injEq] at h
    subst h
    simpa using I
  | cons x l ih =>
    obtain ⟨o, J⟩ := x
    intro ops s s' I h hfit
    simp only [exec] at h
    obtain ⟨s1, h1, h2⟩ := Option.bind_eq_some_iff.1 h
    have I1 := inv_step I J o h1 (fun a b c d hm => hfit a b c d (by simp at hm; simp [hm]))
    have := ih I1 h2 (fun a b c d hm => hfit a b c d (by rw [List.map_cons]; exact List.mem_cons_of_mem _ hm))
    rw [List.map_cons]
    simpa using this

theorem exec_ok (l : List (Op × Junk)) : ∀ {ops s}, Inv ops s → PayloadsAtMost 8000 (l.map Prod.fst) →
    Valid (ops ++ l.map Prod.fst) → ∃ s', exec l s = some s' := by
  induction l with
  | nil => intro ops s _ _ _; exact ⟨s, rfl⟩
  | cons x l ih =>
    obtain ⟨o, J⟩ := x
    intro ops s I hfit hv
    have hf1 : PayloadsAtMost 8000 [o] := fun a b c d hm => hfit a b c d (by simp at hm; simp [hm])
    obtain ⟨s1, h1⟩ := step_ok I J o hf1 (by
      intro k t v ho
      rw [I.tcount]
      exact hv ops (l.map Prod.fst) k t v (by rw [List.map_cons, ho]))
    have I1 := inv_step I J o h1 hf1
    obtain ⟨s', h'⟩ := ih I1 (fun a b c d hm => hfit a b c d (by rw [List.map_cons]; exact List.mem_cons_of_mem _ hm))
      (by simpa using hv)
    exact ⟨s', by simp only [exec]; rw [h1]; exact h'⟩

end Verif.Store
