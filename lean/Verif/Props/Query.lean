import Verif.Model.LayerChanges
import Verif.Props.Witness

/-!
C04 to C11: enumerations, lookups, changes and counts of layers.
-/

set_option linter.unusedSectionVars false

namespace Verif

variable {K V : Type} [LinearOrder K] [LinearOrder V]

/-- C04. `triples()` is strictly increasing and yields exactly the id triples that
`triple_exists` reports; neither panics. -/
theorem C04_triples_complete {S : List (LayerData K V)} (hS : Reachable S) :
    ∃ l, Stack.triples S = some l ∧ SortedLt l ∧
      ∀ t, ∃ b, Stack.tripleExists S t = some b ∧ (b = true ↔ t ∈ l) := by
  obtain ⟨Ps, Ns, hok⟩ := hS.good
  obtain ⟨l, h1, h2, h3⟩ := hok.rep.triples hok.wf
  refine ⟨l, h1, h2, ?_⟩
  intro t
  obtain ⟨b, e1, e2⟩ := hok.exists_total t
  exact ⟨b, e1, by rw [e2, h3]⟩

/-- The witness stack has four triples, one of them behind a removal. -/
example : Reachable [Witness.child, Witness.base] ∧
    Stack.triples [Witness.child, Witness.base] =
      some [⟨1, 1, 2⟩, ⟨1, 2, 6⟩, ⟨2, 3, 5⟩, ⟨3, 2, 4⟩] :=
  ⟨Witness.child_reachable, by decide⟩

theorem eq_filter {l l' : List Triple} (h : SortedLt l) (h' : SortedLt l') {q : Triple → Bool}
    (hm : ∀ t, t ∈ l' ↔ t ∈ l ∧ q t = true) : l' = l.filter q :=
  SortedLt.ext h' (h.filter _) fun t => by rw [hm, List.mem_filter]

/-- C05. `triples_s` and `triples_sp` are the sublists of `triples()` with the given
subject, or subject and predicate, for all ids. -/
theorem C05_triples_by_subject {S : List (LayerData K V)} (hS : Reachable S) :
    ∃ l, Stack.triples S = some l ∧
      (∀ s, Stack.triplesS S s = some (l.filter (fun t => t.s == s))) ∧
      ∀ s p, Stack.triplesSP S s p = some (l.filter (fun t => t.s == s && t.p == p)) := by
  obtain ⟨Ps, Ns, hok⟩ := hS.good
  obtain ⟨l, h1, h2, h3⟩ := hok.rep.triples hok.wf
  refine ⟨l, h1, ?_, ?_⟩
  · intro s
    obtain ⟨l', g1, g2, g3⟩ := hok.rep.triplesS hok.wf s
    rw [g1, eq_filter h2 g2 (q := fun t => t.s == s) (fun t => by rw [g3, h3]; simp)]
  · intro s p
    obtain ⟨l', g1, g2, g3⟩ := hok.rep.triplesSP hok.wf s p
    rw [g1, eq_filter h2 g2 (q := fun t => t.s == s && t.p == p) (fun t => by rw [g3, h3]; simp)]

example : Reachable [Witness.child, Witness.base] ∧
    Stack.triplesS [Witness.child, Witness.base] 1 = some [⟨1, 1, 2⟩, ⟨1, 2, 6⟩] :=
  ⟨Witness.child_reachable, by decide⟩

/-- C06 for every predicate but 0. For 0, which is no predicate's id, see
`C06_predicate_zero`. -/
theorem C06_triples_by_predicate_partial {S : List (LayerData K V)} (hS : Reachable S) {p : Nat}
    (hp : p ≠ 0) :
    ∃ l, Stack.triples S = some l ∧
      Stack.triplesP S p = some (l.filter (fun t => t.p == p)) := by
  obtain ⟨Ps, Ns, hok⟩ := hS.good
  obtain ⟨l, h1, h2, h3⟩ := hok.rep.triples hok.wf
  refine ⟨l, h1, ?_⟩
  obtain ⟨l', g1, g2, g3⟩ := hok.rep.triplesP hok.wf hp
  rw [g1, eq_filter h2 g2 (q := fun t => t.p == p) (fun t => by rw [g3, h3]; simp)]

example : Reachable [Witness.child, Witness.base] ∧
    Stack.triplesP [Witness.child, Witness.base] 2 = some [⟨1, 2, 6⟩, ⟨3, 2, 4⟩] :=
  ⟨Witness.child_reachable, by decide⟩

/-- C06 fails for predicate 0: a subject without triples has a placeholder row in a base
layer, and `triples_p(0)` yields a triple of the row after it. -/
theorem C06_predicate_zero :
    Reachable [Witness.base] ∧ ∃ l t, Stack.triplesP [Witness.base] 0 = some l ∧ t ∈ l ∧ t.p ≠ 0 :=
  ⟨Witness.base_reachable, [⟨3, 2, 4⟩], ⟨3, 2, 4⟩, by decide, by decide, by decide⟩

/-- C07. `triples_o` is the sublist of `triples()` with the given object, for all ids. -/
theorem C07_triples_by_object {S : List (LayerData K V)} (hS : Reachable S) :
    ∃ l, Stack.triples S = some l ∧
      ∀ o, Stack.triplesO S o = some (l.filter (fun t => t.o == o)) := by
  obtain ⟨Ps, Ns, hok⟩ := hS.good
  obtain ⟨l, h1, h2, h3⟩ := hok.rep.triples hok.wf
  refine ⟨l, h1, ?_⟩
  intro o
  obtain ⟨l', g1, g2, g3⟩ := hok.rep.triplesO hok.wf o
  rw [g1, eq_filter h2 g2 (q := fun t => t.o == o) (fun t => by rw [g3, h3]; simp)]

example : Reachable [Witness.child, Witness.base] ∧
    Stack.triplesO [Witness.child, Witness.base] 4 = some [⟨3, 2, 4⟩] :=
  ⟨Witness.child_reachable, by decide⟩

/-- C08. `single_triple_sp` never panics, returns only existing triples of the pair and
`None` only if there are none. -/
theorem C08_single_triple {S : List (LayerData K V)} (hS : Reachable S) (s p : Nat) :
    ∃ r, Stack.singleTripleSP S s p = some r ∧
      (∀ t, r = some t → t.s = s ∧ t.p = p ∧ Stack.tripleExists S t = some true) ∧
      (r = none → ∀ o, Stack.tripleExists S ⟨s, p, o⟩ = some false) := by
  obtain ⟨Ps, Ns, hok⟩ := hS.good
  obtain ⟨r, h1, h2, h3⟩ := hok.rep.singleTripleSP s p
  refine ⟨r, h1, ?_, ?_⟩
  · intro t ht
    obtain ⟨a, b, c⟩ := h2 t ht
    exact ⟨a, b, (hok.exists_iff t).2 c⟩
  · intro hr o
    obtain ⟨b, e1, e2⟩ := hok.exists_total ⟨s, p, o⟩
    have := h3 hr o
    rw [← e2] at this
    rw [e1]
    simpa using this

/-- The lookup goes past the removal of the child to the base layer. -/
example : Reachable [Witness.child, Witness.base] ∧
    Stack.singleTripleSP [Witness.child, Witness.base] 1 1 = some (some ⟨1, 1, 2⟩) :=
  ⟨Witness.child_reachable, by decide⟩

/-- C09 and C10 for one side of a layer: the queries are those of the list `l`. -/
structure SideAgrees (l : List Triple) (all : Option (List Triple))
    (mem : Triple → Option Bool) (bys : Nat → Option (List Triple))
    (bysp : Nat → Nat → Option (List Triple)) (byp : Nat → Option (List Triple)) : Prop where
  all : all = some l
  sorted : SortedLt l
  mem : ∀ t, mem t = some (decide (t ∈ l))
  bys : ∀ s, bys s = some (l.filter (fun t => t.s == s))
  bysp : ∀ s p, bysp s p = some (l.filter (fun t => t.s == s && t.p == p))
  byp : ∀ p, p ≠ 0 → byp p = some (l.filter (fun t => t.p == p))

/-- C09, except `_p` for predicate 0: the additions of a layer are exactly the triples
that exist in it and not below, the removals exactly those that exist below and not in
it, and all access paths agree. -/
theorem C09_changes_exact_partial {d : LayerData K V} {S : List (LayerData K V)}
    (hS : Reachable (d :: S)) :
    ∃ P N, SideAgrees P d.pos.triples d.pos.contains d.pos.triplesS d.pos.triplesSP d.pos.triplesP ∧
      SideAgrees N (Stack.removals d) (Stack.removalExists d) (Stack.removalsS d)
        (Stack.removalsSP d) (Stack.removalsP d) ∧
      (∀ t, t ∈ P ↔ Stack.tripleExists (d :: S) t = some true ∧ Stack.tripleExists S t = some false) ∧
      (∀ t, t ∈ N ↔ Stack.tripleExists S t = some true ∧ Stack.tripleExists (d :: S) t = some false) ∧
      ∀ t, t ∈ P → t ∉ N := by
  obtain ⟨Ps, Ns, hok⟩ := hS.good
  obtain ⟨P, N, Ps', Ns', rfl, rfl, hok'⟩ := hok.tail
  have hst : Stored d.pos P ∧ NegStored d.neg N := by
    cases hok.rep with
    | cons g1 g2 _ => exact ⟨g1, g2⟩
  have hfalse : ∀ {S' : List (LayerData K V)} {Ps' Ns'} (_ : StackOk S' Ps' Ns') (t : Triple),
      Stack.tripleExists S' t = some false ↔ ¬ present Ps' Ns' t := by
    intro S' Ps' Ns' h t
    obtain ⟨b, e1, e2⟩ := h.exists_total t
    rw [e1, ← e2]
    simp
  have hw := hok.wf
  simp only [wellFormed] at hw
  refine ⟨P, N, ?_, ?_, ?_, ?_, ?_⟩
  · exact ⟨hst.1.triples, hst.1.sorted, hst.1.contains, hst.1.triplesS, hst.1.triplesSP,
      fun p hp => hst.1.triplesP hp⟩
  · refine ⟨?_, hst.2.sorted, hst.2.contains, ?_, ?_, ?_⟩ <;>
      [skip; intro s; intro s p; intro p hp] <;>
      simp only [Stack.removals, Stack.removalsS, Stack.removalsSP, Stack.removalsP,
        Stack.onRemovals] <;>
      cases hd : d.neg with
      | none =>
        have := hst.2
        rw [hd] at this
        simp only [NegStored] at this
        subst this
        rfl
      | some x =>
        have := hst.2
        rw [hd] at this
        first
          | exact Stored.triples this
          | exact Stored.triplesS this _
          | exact Stored.triplesSP this _ _
          | exact Stored.triplesP this hp
  · intro t
    rw [hok.exists_iff, hfalse hok']
    simp only [present]
    have := (hw t).1
    tauto
  · intro t
    rw [hok'.exists_iff, hfalse hok]
    simp only [present]
    have h1 := (hw t).1
    have h2 := (hw t).2.1
    tauto
  · intro t h1 h2
    exact (hw t).1 h1 ((hw t).2.1 h2)

example : Reachable [Witness.child, Witness.base] ∧
    Stack.removals Witness.child = some [⟨1, 1, 4⟩] ∧
    Witness.child.pos.triples = some [⟨1, 2, 6⟩, ⟨2, 3, 5⟩] :=
  ⟨Witness.child_reachable, by decide, by decide⟩

/-- C09 fails for predicate 0 in the same way as C06. -/
theorem C09_predicate_zero :
    Reachable [Witness.base] ∧ ∃ l t, Witness.base.pos.triplesP 0 = some l ∧ t ∈ l ∧ t.p ≠ 0 :=
  ⟨Witness.base_reachable, [⟨3, 2, 4⟩], ⟨3, 2, 4⟩, by decide, by decide, by decide⟩

/-- C10 for layers read from storage, all objects. -/
theorem C10_stored_changes_by_object {d : LayerData K V} {S : List (LayerData K V)}
    (hS : Reachable (d :: S)) :
    ∃ P N, d.pos.triples = some P ∧ Stack.removals d = some N ∧
      (∀ o, d.pos.storedTriplesO o = some (P.filter (fun t => t.o == o))) ∧
      ∀ o, Stack.storedRemovalsO d o = some (N.filter (fun t => t.o == o)) := by
  obtain ⟨P, N, h1, h2, _⟩ := C09_changes_exact_partial hS
  obtain ⟨Ps, Ns, hok⟩ := hS.good
  cases hok.rep with
  | @cons _ _ P' N' _ _ g1 g2 _ =>
    have e1 : P' = P := by have := h1.all; rw [g1.triples] at this; simpa using this
    subst e1
    refine ⟨P', N, h1.all, h2.all, g1.storedTriplesO, ?_⟩
    intro o
    have h2a := h2.all
    unfold Stack.removals Stack.onRemovals at h2a
    unfold Stack.storedRemovalsO Stack.onRemovals
    cases hd : d.neg with
    | none => rw [hd] at h2a; simp only [Option.some.injEq] at h2a; subst h2a; rfl
    | some x =>
      rw [hd] at h2a g2
      simp only at h2a ⊢
      have : N' = N := by rw [Stored.triples g2] at h2a; simpa using h2a
      subst this
      exact Stored.storedTriplesO g2 o

example : Reachable [Witness.child, Witness.base] ∧
    Witness.child.pos.storedTriplesO 1 = some [] ∧
    Witness.child.pos.storedTriplesO 5 = some [⟨2, 3, 5⟩] :=
  ⟨Witness.child_reachable, by decide, by decide⟩

/-- C10 for loaded layers, restricted to objects other than 0 that occur in the changes
or are larger than all that do. -/
theorem C10_loaded_changes_by_object_partial {d : LayerData K V} {S : List (LayerData K V)}
    (hS : Reachable (d :: S)) :
    ∃ P N, d.pos.triples = some P ∧ Stack.removals d = some N ∧
      (∀ o, o ≠ 0 → ((∃ t ∈ P, t.o = o) ∨ ∀ t ∈ P, t.o < o) →
        d.pos.triplesO o = some (P.filter (fun t => t.o == o))) ∧
      ∀ o, o ≠ 0 → ((∃ t ∈ N, t.o = o) ∨ ∀ t ∈ N, t.o < o) →
        Stack.removalsO d o = some (N.filter (fun t => t.o == o)) := by
  obtain ⟨P, N, h1, h2, _⟩ := C09_changes_exact_partial hS
  obtain ⟨Ps, Ns, hok⟩ := hS.good
  cases hok.rep with
  | @cons _ _ P' N' _ _ g1 g2 _ =>
    have e1 : P' = P := by have := h1.all; rw [g1.triples] at this; simpa using this
    subst e1
    refine ⟨P', N, h1.all, h2.all, fun o ho hc => g1.triplesO ho (Or.inr hc), ?_⟩
    intro o ho hc
    have h2a := h2.all
    unfold Stack.removals Stack.onRemovals at h2a
    unfold Stack.removalsO Stack.onRemovals
    cases hd : d.neg with
    | none => rw [hd] at h2a; simp only [Option.some.injEq] at h2a; subst h2a; rfl
    | some x =>
      rw [hd] at h2a g2
      simp only at h2a ⊢
      have : N' = N := by rw [Stored.triples g2] at h2a; simpa using h2a
      subst this
      exact Stored.triplesO g2 ho (Or.inr hc)

example : Reachable [Witness.child, Witness.base] ∧
    Witness.child.pos.triplesO 5 = some [⟨2, 3, 5⟩] :=
  ⟨Witness.child_reachable, by decide⟩

/-- C10 fails for a loaded child layer: asked for the additions with object 1, it yields
one with object 5, while the stored layer yields nothing. -/
theorem C10_loaded_wrong_object :
    Reachable [Witness.child, Witness.base] ∧
    Witness.child.pos.triplesO 1 = some [⟨2, 3, 5⟩] ∧
    Witness.child.pos.storedTriplesO 1 = some [] :=
  ⟨Witness.child_reachable, by decide, by decide⟩

/-- The lengths of the enumerations of each layer, added up. -/
def sumLengths (f : LayerData K V → Option (List Triple)) : List (LayerData K V) → Option Nat
  | [] => some 0
  | d :: S => do
    let l ← f d
    let n ← sumLengths f S
    return l.length + n

/-- C11. All counts are the lengths of the enumerations, and none underflows. -/
theorem C11_counts {S : List (LayerData K V)} (hS : Reachable S) :
    (∃ l, Stack.triples S = some l ∧ Stack.tripleCount S = some l.length) ∧
    (∀ d ∈ S, (∃ l, d.pos.triples = some l ∧ d.pos.count = some l.length) ∧
      ∃ l, Stack.removals d = some l ∧ Stack.removalCount d = some l.length) ∧
    (∃ a r, Stack.tripleAdditionCount S = some a ∧ Stack.tripleRemovalCount S = some r ∧
      sumLengths (fun d => d.pos.triples) S = some a ∧ sumLengths Stack.removals S = some r) := by
  obtain ⟨Ps, Ns, hok⟩ := hS.good
  have hrem : ∀ {d : LayerData K V} {N : List Triple}, NegStored d.neg N →
      Stack.removals d = some N := by
    intro d N h
    unfold Stack.removals Stack.onRemovals
    cases hd : d.neg with
    | none => rw [hd] at h; simp only [NegStored] at h; subst h; rfl
    | some x => rw [hd] at h; exact Stored.triples h
  refine ⟨?_, ?_, ?_⟩
  · obtain ⟨l, h1, h2, h3⟩ := hok.rep.triples hok.wf
    exact ⟨l, h1, hok.rep.count hok.wf h2.nodup h3⟩
  · have := hok.rep
    clear hok hS
    induction this with
    | nil => simp
    | cons g1 g2 _ ih =>
      intro e he
      rcases List.mem_cons.1 he with rfl | he
      · exact ⟨⟨_, g1.triples, g1.count⟩, ⟨_, hrem g2, g2.count⟩⟩
      · exact ih e he
  · have := hok.rep
    clear hok hS
    induction this with
    | nil => exact ⟨0, 0, rfl, rfl, rfl, rfl⟩
    | @cons _ _ P N _ _ g1 g2 _ ih =>
      obtain ⟨a, r, i1, i2, i3, i4⟩ := ih
      refine ⟨P.length + a, N.length + r, ?_, ?_, ?_, ?_⟩
      · simp only [Stack.tripleAdditionCount, g1.count, i1, Option.bind_eq_bind, Option.bind_some]
        rfl
      · simp only [Stack.tripleRemovalCount, g2.count, i2, Option.bind_eq_bind, Option.bind_some]
        rfl
      · simp only [sumLengths, g1.triples, i3, Option.bind_eq_bind, Option.bind_some]
        rfl
      · simp only [sumLengths, hrem g2, i4, Option.bind_eq_bind, Option.bind_some]
        rfl

example : Reachable [Witness.child, Witness.base] ∧
    Stack.tripleCount [Witness.child, Witness.base] = some 4 ∧
    Stack.tripleRemovalCount [Witness.child, Witness.base] = some 1 :=
  ⟨Witness.child_reachable, by decide, by decide⟩

end Verif
