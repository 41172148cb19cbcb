/-!
The specification the property theorems are stated against. It mentions sets of
triples and histories of calls, and nothing of the model.
-/

namespace Verif.Spec

/-- A call on a layer builder, for triples of any kind. -/
inductive Call (T : Type) where
  | add (t : T)
  | remove (t : T)

/-- The triple was asked to be added. -/
def added {T : Type} (calls : List (Call T)) (t : T) : Prop := Call.add t ∈ calls

/-- The triple was asked to be removed. -/
def removed {T : Type} (calls : List (Call T)) (t : T) : Prop := Call.remove t ∈ calls

/-- The triples after a commit, given those before: a triple both added and removed
stays as it was, one only added is there, one only removed is not, any other
stays as it was. -/
def after {T : Type} (before : T → Prop) (calls : List (Call T)) (t : T) : Prop :=
  (added calls t ∧ removed calls t ∧ before t) ∨
  (added calls t ∧ ¬ removed calls t) ∨
  (¬ added calls t ∧ ¬ removed calls t ∧ before t)

/-- Two histories ask for the same additions and the same removals. -/
def sameRequests {T : Type} (c c' : List (Call T)) : Prop :=
  (∀ t, added c t ↔ added c' t) ∧ (∀ t, removed c t ↔ removed c' t)

end Verif.Spec
