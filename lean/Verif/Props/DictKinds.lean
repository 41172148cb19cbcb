import Verif.Props.Dict

/-!
C14: asking for a node or a value by an id of the other kind.
-/

namespace Verif

variable {K V : Type} [LinearOrder K] [LinearOrder V]

/-- C14, at its edge: asking for the node of an id panics exactly if the id is that of a value,
and asking for the value exactly if it is that of a node. Ids that stand for nothing give
nothing in both cases. -/
theorem C14_wrong_kind {S : List (LayerData K V)} (hS : Reachable S) (i : Nat) :
    (Stack.idObjectNode S i = none ↔ ∃ v, Stack.valueId S v = some (some i)) ∧
    (Stack.idObjectValue S i = none ↔ ∃ k, Stack.nodeId S k = some (some i)) ∧
    ((∀ k, Stack.nodeId S k ≠ some (some i)) → (∀ v, Stack.valueId S v ≠ some (some i)) →
      Stack.idObjectNode S i = some none ∧ Stack.idObjectValue S i = some none) := by
  obtain ⟨Ps, Ns, hok⟩ := hS.good
  obtain ⟨h1, h2, h3⟩ := C14_nodes_and_values_apart hS
  obtain ⟨r, e, _⟩ := idObject_spec hok i
  have hnode : ∀ k, Stack.idObject S i = some (some (.node k)) → Stack.nodeId S k = some (some i) :=
    fun k h => (idObject_iff hS (.node k) i).2 h
  have hval : ∀ v, Stack.idObject S i = some (some (.value v)) → Stack.valueId S v = some (some i) :=
    fun v h => (idObject_iff hS (.value v) i).2 h
  cases r with
  | none =>
    have en : Stack.idObjectNode S i = some none := by
      simp only [Stack.idObjectNode, e, Option.bind_eq_bind, Option.bind_some]
    have ev : Stack.idObjectValue S i = some none := by
      simp only [Stack.idObjectValue, e, Option.bind_eq_bind, Option.bind_some]
    refine ⟨⟨fun h => ?_, ?_⟩, ⟨fun h => ?_, ?_⟩, fun _ _ => ⟨en, ev⟩⟩
    · rw [en] at h; cases h
    · rintro ⟨v, h⟩
      have := (h3 v i h).1
      rw [e] at this; cases this
    · rw [ev] at h; cases h
    · rintro ⟨k, h⟩
      have := (h2 k i h).1
      rw [e] at this; cases this
  | some o =>
    cases o with
    | node k =>
      have hk := hnode k e
      have en : Stack.idObjectNode S i = some (some k) := (h2 k i hk).2.2.2
      have ev : Stack.idObjectValue S i = none := by
        simp only [Stack.idObjectValue, e, Option.bind_eq_bind, Option.bind_some]
      refine ⟨⟨fun h => ?_, ?_⟩, ⟨fun _ => ⟨k, hk⟩, fun _ => ev⟩, fun h _ => absurd hk (h k)⟩
      · rw [en] at h; cases h
      · rintro ⟨v, h⟩
        exact absurd rfl (h1 k v i i hk h)
    | value v =>
      have hv := hval v e
      have ev : Stack.idObjectValue S i = some (some v) := (h3 v i hv).2.2.2.1
      have en : Stack.idObjectNode S i = none := by
        simp only [Stack.idObjectNode, e, Option.bind_eq_bind, Option.bind_some]
      refine ⟨⟨fun _ => ⟨v, hv⟩, fun _ => en⟩, ⟨fun h => ?_, ?_⟩, fun _ h => absurd hv (h v)⟩
      · rw [ev] at h; cases h
      · rintro ⟨k, h⟩
        exact absurd rfl (h1 k v i i h hv)

/-- A node, a value and an id that stands for nothing. -/
example : Reachable [Witness.base] ∧ Stack.idObjectNode [Witness.base] 4 = none ∧
    Stack.idObjectValue [Witness.base] 4 = some (some 7) ∧
    Stack.idObjectValue [Witness.base] 1 = none ∧
    Stack.idObjectNode [Witness.base] 9 = some none :=
  ⟨Witness.base_reachable, by decide, by decide, by decide, by decide⟩

end Verif
