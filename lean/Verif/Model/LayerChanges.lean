import Verif.Model.Layer

/-!
The removals of one layer. The additions of a layer are the queries of
`TripleIndex` on its `pos`; a base layer has no removals.
-/

namespace Verif.Stack

variable {K V : Type}

/-- Run a query on the removals of a layer; a base layer has none
(src/layer/internal/mod.rs:273-296, 308-323, 381-410, 433-467). -/
def onRemovals (d : LayerData K V) (f : TripleIndex → Option (List Triple)) :
    Option (List Triple) :=
  match d.neg with
  | none => some []
  | some x => f x

/-- `internal_triple_removals` (src/layer/internal/mod.rs:308-323). -/
def removals (d : LayerData K V) : Option (List Triple) := onRemovals d (·.triples)

/-- `internal_triple_removals_s` (src/layer/internal/mod.rs:335-345). -/
def removalsS (d : LayerData K V) (s : Nat) : Option (List Triple) := onRemovals d (·.triplesS s)

/-- `internal_triple_removals_sp` (src/layer/internal/mod.rs:358-369). -/
def removalsSP (d : LayerData K V) (s p : Nat) : Option (List Triple) :=
  onRemovals d (·.triplesSP s p)

/-- `internal_triple_removals_p` (src/layer/internal/mod.rs:389-410). -/
def removalsP (d : LayerData K V) (p : Nat) : Option (List Triple) := onRemovals d (·.triplesP p)

/-- `internal_triple_removals_o` (src/layer/internal/mod.rs:433-442). -/
def removalsO (d : LayerData K V) (o : Nat) : Option (List Triple) := onRemovals d (·.triplesO o)

/-- `triple_removals_o` of a stored layer (src/storage/layer.rs:2448-2470). -/
def storedRemovalsO (d : LayerData K V) (o : Nat) : Option (List Triple) :=
  onRemovals d (·.storedTriplesO o)

end Verif.Stack
