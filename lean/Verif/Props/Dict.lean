import Verif.Props.Witness

/-!
C12, C13, C14, C16: ids of strings and values.
-/

set_option linter.unusedSectionVars false

namespace Verif

variable {K V : Type} [LinearOrder K] [LinearOrder V]

theorem idObject_iff {S : List (LayerData K V)} (hS : Reachable S) (o : Obj K V) (i : Nat) :
    Stack.objectId S o = some (some i) ↔ Stack.idObject S i = some (some o) := by
  obtain ⟨Ps, Ns, hok⟩ := hS.good
  obtain ⟨r, e1, e2⟩ := idObject_spec hok i
  rw [e1, ← e2]
  simp

/-- C12. Ids and entries translate back and forth: for subjects, predicates, objects;
an id resolves exactly when it is between 1 and the count. -/
theorem C12_dictionary_round_trip {S : List (LayerData K V)} (hS : Reachable S) :
    (∀ k i, Stack.nodeId S k = some (some i) ↔ Stack.idSubject S i = some (some k)) ∧
    (∀ p i, Stack.predId S p = some (some i) ↔ Stack.idPredicate S i = some (some p)) ∧
    (∀ k i, Stack.nodeId S k = some (some i) ↔ Stack.idObject S i = some (some (.node k))) ∧
    (∀ v i, Stack.valueId S v = some (some i) ↔ Stack.idObject S i = some (some (.value v))) ∧
    (∀ i, 1 ≤ i → i ≤ Stack.nvCount S → ∃ o, Stack.idObject S i = some (some o)) ∧
    (∀ i, i = 0 ∨ Stack.nvCount S < i →
      Stack.idObject S i = some none ∧ Stack.idSubject S i = some none) ∧
    (∀ i, 1 ≤ i → i ≤ Stack.pCount S → ∃ p, Stack.idPredicate S i = some (some p)) ∧
    (∀ i, i = 0 ∨ Stack.pCount S < i → Stack.idPredicate S i = some none) ∧
    (∀ k, ∃ r, Stack.nodeId S k = some r) ∧ (∀ v, ∃ r, Stack.valueId S v = some r) ∧
    (∀ p, ∃ r, Stack.predId S p = some r) := by
  obtain ⟨Ps, Ns, hok⟩ := hS.good
  have hobj : ∀ i, i = 0 ∨ Stack.nvCount S < i → Stack.idObject S i = some none := by
    rintro i (rfl | hi)
    · rfl
    · rw [idObject_eq hok.counts (by omega)]
      rw [hok.nvCount] at hi
      rcases lvGet_total hok.nv i (by omega) with ⟨_, _, h, _⟩ | ⟨h, _⟩
      · omega
      · exact h
  refine ⟨?_, ?_, ?_, ?_, ?_, ?_, ?_, ?_, ?_, ?_, ?_⟩
  · intro k i
    obtain ⟨r, e1, e2⟩ := idSubject_spec hok i
    rw [e1, ← e2]; simp
  · intro k i
    obtain ⟨r, e1, e2⟩ := idPredicate_spec hok i
    rw [e1, ← e2]; simp
  · intro k i; exact idObject_iff hS (.node k) i
  · intro k i; exact idObject_iff hS (.value k) i
  · intro i h1 h2
    rw [idObject_eq hok.counts h1]
    rw [hok.nvCount] at h2
    rcases lvGet_total hok.nv i h1 with ⟨a, h, _⟩ | ⟨_, h⟩
    · exact ⟨a, h⟩
    · omega
  · intro i hi
    refine ⟨hobj i hi, ?_⟩
    obtain ⟨r, e1, e2⟩ := idSubject_spec hok i
    cases r with
    | none => exact e1
    | some k =>
      have h1 := (idObject_iff hS (.node k) i).1 ((e2 k).1 rfl)
      rw [hobj i hi] at h1
      simp at h1
  · intro i h1 h2
    rw [idPredicate_eq hok.counts h1]
    rw [hok.pCount] at h2
    rcases lvGet_total hok.pr i h1 with ⟨a, h, _⟩ | ⟨_, h⟩
    · exact ⟨a, h⟩
    · omega
  · rintro i (rfl | hi)
    · rfl
    · rw [idPredicate_eq hok.counts (by omega)]
      rw [hok.pCount] at hi
      rcases lvGet_total hok.pr i (by omega) with ⟨_, _, h, _⟩ | ⟨h, _⟩
      · omega
      · exact h
  · intro k; exact objectId_total hok (.node k)
  · intro k; exact objectId_total hok (.value k)
  · intro k; exact predId_total hok k

example : Reachable [Witness.child, Witness.base] ∧
    Stack.valueId [Witness.child, Witness.base] 8 = some (some 6) ∧
    Stack.idSubject [Witness.child, Witness.base] 5 = some (some 4) ∧
    Stack.nvCount [Witness.child, Witness.base] = 6 :=
  ⟨Witness.child_reachable, by decide, by decide, by decide⟩

/-- C13. Ids are stable: what an id stands for in a layer, and the id of an entry, are
the same in every layer above. -/
theorem C13_ids_stable {T S : List (LayerData K V)} (hS : Reachable (T ++ S)) :
    (∀ i o, Stack.idObject S i = some (some o) → Stack.idObject (T ++ S) i = some (some o)) ∧
    (∀ i k, Stack.idSubject S i = some (some k) → Stack.idSubject (T ++ S) i = some (some k)) ∧
    (∀ i p, Stack.idPredicate S i = some (some p) → Stack.idPredicate (T ++ S) i = some (some p)) ∧
    (∀ o i, Stack.objectId S o = some (some i) → Stack.objectId (T ++ S) o = some (some i)) ∧
    (∀ p i, Stack.predId S p = some (some i) → Stack.predId (T ++ S) p = some (some i)) := by
  obtain ⟨Ps, Ns, hok⟩ := hS.good
  have key : ∀ (T : List (LayerData K V)) (Ps Ns), StackOk (T ++ S) Ps Ns →
      (∃ Ps Ns, StackOk S Ps Ns) ∧
      (∀ o i, Stack.objectId S o = some (some i) → Stack.objectId (T ++ S) o = some (some i)) ∧
      (∀ p i, Stack.predId S p = some (some i) → Stack.predId (T ++ S) p = some (some i)) := by
    intro T
    induction T with
    | nil => intro Ps Ns h; exact ⟨⟨_, _, h⟩, fun _ _ h => h, fun _ _ h => h⟩
    | cons d T ih =>
      intro Ps Ns h
      rw [List.cons_append] at h
      obtain ⟨P, N, Ps', Ns', _, _, h'⟩ := h.tail
      obtain ⟨h1, h2, h3⟩ := ih _ _ h'
      refine ⟨h1, ?_, ?_⟩
      · intro o i hi
        have := h2 o i hi
        rw [objectId_eq h'.counts] at this
        rw [List.cons_append, objectId_eq h.counts]
        exact lvId_cons_low h.nv this
      · intro o i hi
        have := h3 o i hi
        rw [predId_eq h'.counts] at this
        rw [List.cons_append, predId_eq h.counts]
        exact lvId_cons_low h.pr this
  obtain ⟨⟨Ps', Ns', hok'⟩, h1, h2⟩ := key T Ps Ns hok
  refine ⟨?_, ?_, ?_, h1, h2⟩
  · intro i o h
    obtain ⟨r, e1, e2⟩ := idObject_spec hok' i
    obtain ⟨r', e1', e2'⟩ := idObject_spec hok i
    rw [h] at e1
    simp only [Option.some.injEq] at e1
    rw [e1', (e2' o).2 (h1 o i ((e2 o).1 e1.symm))]
  · intro i o h
    obtain ⟨r, e1, e2⟩ := idSubject_spec hok' i
    obtain ⟨r', e1', e2'⟩ := idSubject_spec hok i
    rw [h] at e1
    simp only [Option.some.injEq] at e1
    rw [e1', (e2' o).2 (h1 (.node o) i ((e2 o).1 e1.symm))]
  · intro i o h
    obtain ⟨r, e1, e2⟩ := idPredicate_spec hok' i
    obtain ⟨r', e1', e2'⟩ := idPredicate_spec hok i
    rw [h] at e1
    simp only [Option.some.injEq] at e1
    rw [e1', (e2' o).2 (h2 o i ((e2 o).1 e1.symm))]

example : Reachable ([Witness.child] ++ [Witness.base]) ∧
    Stack.idObject [Witness.base] 4 = some (some (.value 7)) :=
  ⟨Witness.child_reachable, by decide⟩

/-- C14. Nodes and values never share an id, the kind of an id is the kind it was added
with, and a value id never resolves as a subject. -/
theorem C14_nodes_and_values_apart {S : List (LayerData K V)} (hS : Reachable S) :
    (∀ k v i j, Stack.nodeId S k = some (some i) → Stack.valueId S v = some (some j) → i ≠ j) ∧
    (∀ k i, Stack.nodeId S k = some (some i) → Stack.idObject S i = some (some (.node k)) ∧
      Stack.idObjectIsNode S i = some (some true) ∧ Stack.idObjectIsValue S i = some (some false) ∧
      Stack.idObjectNode S i = some (some k)) ∧
    (∀ v i, Stack.valueId S v = some (some i) → Stack.idObject S i = some (some (.value v)) ∧
      Stack.idObjectIsNode S i = some (some false) ∧ Stack.idObjectIsValue S i = some (some true) ∧
      Stack.idObjectValue S i = some (some v) ∧ Stack.idSubject S i = some none) := by
  obtain ⟨Ps, Ns, hok⟩ := hS.good
  have hnode : ∀ k i, Stack.nodeId S k = some (some i) →
      Stack.idObject S i = some (some (.node k)) := fun k i h => (idObject_iff hS (.node k) i).1 h
  have hval : ∀ v i, Stack.valueId S v = some (some i) →
      Stack.idObject S i = some (some (.value v)) := fun k i h => (idObject_iff hS (.value k) i).1 h
  have hpos : ∀ {i : Nat} {o : Obj K V}, Stack.idObject S i = some (some o) → 1 ≤ i := by
    intro i o h
    rcases Nat.eq_zero_or_pos i with rfl | h'
    · have : Stack.idObject S 0 = some none := rfl
      rw [this] at h; simp at h
    · exact h'
  have hkind : ∀ {i : Nat} {o : Obj K V}, Stack.idObject S i = some (some o) →
      Stack.idObjectIsNode S i =
        some (some (match o with | .node _ => true | .value _ => false)) := by
    intro i o h
    have hi := hpos h
    rw [idObject_eq hok.counts hi] at h
    rw [idObjectIsNode_eq hok.counts hi hok.nv, h]
    rfl
  refine ⟨?_, ?_, ?_⟩
  · rintro k v i j h1 h2 rfl
    have a := hnode k i h1
    rw [hval v i h2] at a
    simp at a
  · intro k i h
    have h1 := hnode k i h
    have h2 := hkind h1
    refine ⟨h1, h2, ?_, ?_⟩
    · simp only [Stack.idObjectIsValue, h2, Option.bind_eq_bind, Option.bind_some]; rfl
    · simp only [Stack.idObjectNode, h1, Option.bind_eq_bind, Option.bind_some]
  · intro v i h
    have h1 := hval v i h
    have h2 := hkind h1
    refine ⟨h1, h2, ?_, ?_, ?_⟩
    · simp only [Stack.idObjectIsValue, h2, Option.bind_eq_bind, Option.bind_some]; rfl
    · simp only [Stack.idObjectValue, h1, Option.bind_eq_bind, Option.bind_some]
    · obtain ⟨r, e1, e2⟩ := idSubject_spec hok i
      cases r with
      | none => exact e1
      | some k =>
        have := hnode k i ((e2 k).1 rfl)
        rw [h1] at this
        simp at this

/-- The base layer of this stack has the number 7 as a value; this child adds it as a
node, with another id. -/
example : ∃ (S : List (LayerData Nat Nat)) (i j : Nat), Reachable S ∧
    Stack.nodeId S 7 = some (some i) ∧ Stack.valueId S 7 = some (some j) ∧ i ≠ j := by
  refine ⟨[⟨[7], [], [], none, none, 4, 2,
      ⟨some [5], some [2], ⟨[1], [true]⟩, ⟨[2], [true]⟩, ⟨[1], [true]⟩, [1]⟩,
      some ⟨some [], some [], ⟨[], []⟩, ⟨[], []⟩, ⟨[], []⟩, []⟩⟩, Witness.base], 5, 4,
    .commit Witness.base_reachable (ops := [.addValue ⟨7, 10, .node 2⟩]) (by simp [IdsKnown])
      (Witness.commits_of_eval (by decide)), by decide, by decide, by decide⟩

/-- C16, first half. Value triples and id triples convert back and forth, and existence
agrees. -/
theorem C16_conversions {S : List (LayerData K V)} (hS : Reachable S) :
    (∀ t u, Stack.valueTripleToId S t = some (some u) ↔
      Stack.idTripleToString S u = some (some t)) ∧
    (∀ t, ∃ r, Stack.valueTripleToId S t = some r) ∧
    (∀ u, ∃ r, Stack.idTripleToString S u = some r) ∧
    (∀ t u, Stack.valueTripleToId S t = some (some u) →
      Stack.valueTripleExists S t = Stack.tripleExists S u) ∧
    (∀ t, Stack.valueTripleToId S t = some none → Stack.valueTripleExists S t = some false) := by
  obtain ⟨Ps, Ns, hok⟩ := hS.good
  refine ⟨?_, ?_, ?_, ?_, ?_⟩
  · intro t u
    obtain ⟨r, e1, e2⟩ := valueTripleToId_spec hok t
    obtain ⟨r', e1', e2'⟩ := idTripleToString_spec hok u
    rw [e1, e1']
    simp only [Option.some.injEq]
    rw [e2, e2']
  · intro t
    obtain ⟨r, e, _⟩ := valueTripleToId_spec hok t
    exact ⟨r, e⟩
  · intro u
    obtain ⟨r, e, _⟩ := idTripleToString_spec hok u
    exact ⟨r, e⟩
  · intro t u h
    simp only [Stack.valueTripleExists, h, Option.bind_eq_bind, Option.bind_some]
  · intro t h
    simp only [Stack.valueTripleExists, h, Option.bind_eq_bind, Option.bind_some]
    rfl

example : Reachable [Witness.child, Witness.base] ∧
    Stack.valueTripleToId [Witness.child, Witness.base] ⟨1, 11, .value 8⟩ = some (some ⟨1, 2, 6⟩) :=
  ⟨Witness.child_reachable, by decide⟩

theorem nodeId_stable {T S : List (LayerData K V)} (hS : Reachable (T ++ S)) (k : K) (i : Nat)
    (h : Stack.nodeId S k = some (some i)) : Stack.nodeId (T ++ S) k = some (some i) :=
  (C13_ids_stable hS).2.2.2.1 (.node k) i h

/-- C16, second half. Resolving a triple partially in a layer and the rest with maps
that give the ids of a layer above gives the full resolution in the layer above;
`as_resolved` succeeds exactly when the layer itself resolves the triple, and
`make_resolved_or_zero` gives that or all zeros. -/
theorem C16_partial_resolution {T S : List (LayerData K V)} (hS : Reachable (T ++ S))
    (t : VTriple K V) (node pred : K → Option Nat) (value : V → Option Nat)
    (hn : ∀ k, Stack.nodeId S k = some none → some (node k) = Stack.nodeId (T ++ S) k)
    (hp : ∀ k, Stack.predId S k = some none → some (pred k) = Stack.predId (T ++ S) k)
    (hv : ∀ k, Stack.valueId S k = some none → some (value k) = Stack.valueId (T ++ S) k) :
    ∃ r, Stack.valueTripleToPartiallyResolved S t = some r ∧
      some (r.resolveWith node pred value) = Stack.valueTripleToId (T ++ S) t ∧
      some r.asResolved = Stack.valueTripleToId S t ∧
      r.makeResolvedOrZero.asResolved = some (r.asResolved.getD ⟨0, 0, 0⟩) := by
  obtain ⟨Ps, Ns, hok⟩ := hS.good
  obtain ⟨Ps', Ns', hok'⟩ := hok.suffix
  obtain ⟨s, hs⟩ := objectId_total hok' (.node t.s)
  obtain ⟨p, hpp⟩ := predId_total hok' t.p
  obtain ⟨o, ho⟩ := objectId_total hok' t.o
  have hs' : Stack.nodeId S t.s = some s := hs
  have hstab := C13_ids_stable hS
  have es : some (PRTriple.lookup node (.ofId s t.s)) = Stack.nodeId (T ++ S) t.s := by
    cases s with
    | none => exact hn _ hs'
    | some i => exact (hstab.2.2.2.1 (.node t.s) i hs).symm
  have ep : some (PRTriple.lookup pred (.ofId p t.p)) = Stack.predId (T ++ S) t.p := by
    cases p with
    | none => exact hp _ hpp
    | some i => exact (hstab.2.2.2.2 t.p i hpp).symm
  have eo : some (PRTriple.lookup (fun o => match o with | .node n => node n | .value v => value v)
      (.ofId o t.o)) = Stack.objectId (T ++ S) t.o := by
    cases o with
    | none =>
      cases hto : t.o with
      | node k => rw [hto] at ho; exact hn _ ho
      | value k => rw [hto] at ho; exact hv _ ho
    | some i => exact (hstab.2.2.2.1 t.o i ho).symm
  refine ⟨⟨.ofId s t.s, .ofId p t.p, .ofId o t.o⟩, ?_, ?_, ?_, ?_⟩
  · simp only [Stack.valueTripleToPartiallyResolved, hs', hpp, ho, Option.bind_eq_bind,
      Option.bind_some]
    rfl
  · unfold Stack.valueTripleToId PRTriple.resolveWith
    rw [← es, ← ep, ← eo]
    simp only [Option.bind_eq_bind, Option.bind_some]
    cases PRTriple.lookup node (.ofId s t.s) <;> [rfl; skip]
    cases PRTriple.lookup pred (.ofId p t.p) <;> [rfl; skip]
    cases PRTriple.lookup (fun o => match o with | .node n => node n | .value v => value v)
      (.ofId o t.o) <;> rfl
  · unfold Stack.valueTripleToId PRTriple.asResolved
    simp only [hs', hpp, ho, Option.bind_eq_bind, Option.bind_some]
    cases s <;> cases p <;> cases o <;> rfl
  · cases s <;> cases p <;> cases o <;> rfl

/-- A triple of which only the subject is known in the base layer. -/
example : Reachable ([Witness.child] ++ [Witness.base]) ∧
    Stack.valueTripleToPartiallyResolved [Witness.base] ⟨2, 12, .node 4⟩ =
      some ⟨.resolved 2, .unresolved 12, .unresolved (.node 4)⟩ ∧
    Stack.valueTripleToId [Witness.child, Witness.base] ⟨2, 12, .node 4⟩ = some (some ⟨2, 3, 5⟩) :=
  ⟨Witness.child_reachable, by decide, by decide⟩

end Verif
