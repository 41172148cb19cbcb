import Verif.Model.Layer

/-!
What it means that two layers cannot be told apart by queries. Every query of the
`Layer` trait (src/layer/layer.rs:12-166) is listed. Each equation also says that
neither side panics unless the other does.
-/

namespace Verif

variable {K V : Type} [DecidableEq K] [DecidableEq V]

/-- The two layers, given by their stacks, answer all queries alike. `single_triple_sp`
returns some triple of several, so only whether it finds one is compared. `triples_p` is
compared for ids of predicates and not for 0. -/
structure SameAnswers (A B : List (LayerData K V)) : Prop where
  subjectId : ∀ k, Stack.nodeId A k = Stack.nodeId B k
  predicateId : ∀ k, Stack.predId A k = Stack.predId B k
  objectId : ∀ o, Stack.objectId A o = Stack.objectId B o
  idSubject : ∀ i, Stack.idSubject A i = Stack.idSubject B i
  idPredicate : ∀ i, Stack.idPredicate A i = Stack.idPredicate B i
  idObject : ∀ i, Stack.idObject A i = Stack.idObject B i
  idObjectIsNode : ∀ i, Stack.idObjectIsNode A i = Stack.idObjectIsNode B i
  nodeAndValueCount : Stack.nvCount A = Stack.nvCount B
  predicateCount : Stack.pCount A = Stack.pCount B
  allCounts : Stack.allCounts A = Stack.allCounts B
  tripleExists : ∀ t, Stack.tripleExists A t = Stack.tripleExists B t
  triples : Stack.triples A = Stack.triples B
  triplesS : ∀ s, Stack.triplesS A s = Stack.triplesS B s
  triplesSP : ∀ s p, Stack.triplesSP A s p = Stack.triplesSP B s p
  triplesP : ∀ p, p ≠ 0 → Stack.triplesP A p = Stack.triplesP B p
  triplesO : ∀ o, Stack.triplesO A o = Stack.triplesO B o
  singleTripleSP : ∀ s p, (Stack.singleTripleSP A s p).map Option.isSome =
    (Stack.singleTripleSP B s p).map Option.isSome
  tripleCount : Stack.tripleCount A = Stack.tripleCount B
  valueTripleToId : ∀ t, Stack.valueTripleToId A t = Stack.valueTripleToId B t
  valueTripleExists : ∀ t, Stack.valueTripleExists A t = Stack.valueTripleExists B t
  idTripleToString : ∀ t, Stack.idTripleToString A t = Stack.idTripleToString B t

end Verif
