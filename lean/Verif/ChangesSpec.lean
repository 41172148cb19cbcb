import Verif.Model.Merge

/-!
What the changes between two sets of triples are.
-/

namespace Verif.Spec

/-- The changes that turn the triples `old` into the triples `new`: each once, in order, labelled
as additions and removals. -/
structure NetChanges (new old : List Triple) (cs : List (TripleChange × Triple)) : Prop where
  increasing : cs.Pairwise (fun a b => a.2 < b.2)
  additions : ∀ t, (.addition, t) ∈ cs ↔ t ∈ new ∧ t ∉ old
  removals : ∀ t, (.removal, t) ∈ cs ↔ t ∉ new ∧ t ∈ old

end Verif.Spec
