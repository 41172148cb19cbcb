import Verif.ApiSpec

/-!
The specification of several stores that exchange layers by packs, as seen by one program that
uses them: each behaves as the simple store of `Verif/ApiSpec.lean`, a pack is a set of layers, and
a name stands for the same layer in all stores.
-/

namespace Verif.Net

open Spec

variable {K V L : Type}

/-- A layer in a pack: its parent, its triples and its ids. -/
structure Shipped (K V : Type) where
  parent : Option Nat
  triples : VTriple K V → Prop
  ids : Api.Ids K V

/-- A pack: the layers by their names. -/
abbrev Shipment (K V : Type) := Nat → Option (Shipped K V)

/-- The stores, all empty at first, and the packs that were made. -/
structure State (K V L : Type) where
  stores : Nat → Api.State K V L := fun _ => {}
  packs : List (Shipment K V) := []

/-- The calls: on one of the stores, or with one of the packs, which are given by their
numbers. -/
inductive Req (K V L : Type) where
  | on (i : Nat) (c : Api.Req K V L)
  /-- `export_layers` of the store `i`. -/
  | pack (i : Nat) (ns : List Nat)
  /-- `import_layers` of the store `i` from the pack `p`. -/
  | unpack (i p : Nat) (ns : List Nat)
  /-- `pack_layer_parents` of the pack `p`. -/
  | parents (p : Nat)
deriving DecidableEq

/-- The answers. -/
inductive Ans (K V L : Type) where
  | said (r : Api.Ans K V L)
  /-- A new pack gets the next number. -/
  | pack (p : Nat)
  | done
  | parents (l : List (Nat × Option Nat))
  | failed
  /-- There is no such pack, or the call is not modelled. -/
  | invalid
deriving DecidableEq

namespace State

/-- A store changes. -/
def set (s : State K V L) (i : Nat) (a : Api.State K V L) : State K V L :=
  { s with stores := fun j => if j = i then a else s.stores j }

/-- The layer of that name in the store `i`. -/
def layer (s : State K V L) (i n : Nat) : Shipped K V :=
  ⟨(s.stores i).log.parent n, (s.stores i).log.triples n, (s.stores i).ids n⟩

/-- The store `i` has a layer of that name. -/
def has (s : State K V L) (i n : Nat) : Prop := (s.stores i).log.known n

/-- A name stands for the same layer in all stores. -/
def Consistent (s : State K V L) : Prop :=
  ∀ i j n, s.has i n → s.has j n → s.layer i n = s.layer j n

/-- The layers `ns` of the pack `P` can be put into the store `i`: it has none of them, and
their parents are among them or there. -/
def Fits (s : State K V L) (i : Nat) (P : Shipment K V) (ns : List Nat) : Prop :=
  ∀ n ∈ ns, ∃ x, P n = some x ∧ ¬ s.has i n ∧ ∀ p, x.parent = some p → p ∈ ns ∨ s.has i p

end State

/-- A store gets the layer `n` of a pack. -/
def receive (P : Shipment K V) (a : Api.State K V L) (n : Nat) : Api.State K V L :=
  match P n with
  | some x => a.add (.imported n x.parent x.triples) x.ids
  | none => a

open State

/-- What a call may answer, and the state after it. -/
inductive Step [DecidableEq L] : State K V L → Req K V L → Ans K V L → State K V L → Prop
  /-- Layers that are made have names that no store has. -/
  | on {s i c r a} : Api.Step (s.stores i) c r a →
      (∀ n, a.log.known n → s.has i n ∨ ∀ j, ¬ s.has j n) → Step s (.on i c) (.said r) (s.set i a)
  | pack {s i ns} : (∀ n ∈ ns, s.has i n) →
      Step s (.pack i ns) (.pack s.packs.length)
        { s with packs := s.packs ++ [fun n => if n ∈ ns then some (s.layer i n) else none] }
  | packFailed {s i ns} : (∃ n ∈ ns, ¬ s.has i n) → Step s (.pack i ns) .failed s
  | unpack {s i p P ns} {ms : List Nat} : s.packs[p]? = some P → s.Fits i P ns → ms.Nodup →
      (∀ n, n ∈ ms ↔ n ∈ ns) →
      Step s (.unpack i p ns) .done (s.set i (ms.foldl (receive P) (s.stores i)))
  | parents {s p P l} : s.packs[p]? = some P → (l.map Prod.fst).Nodup →
      (∀ n q, (n, q) ∈ l ↔ ∃ x, P n = some x ∧ x.parent = q) → Step s (.parents p) (.parents l) s

/-- The calls for which the code keeps to the specification. -/
def InContract (s : State K V L) : Req K V L → Prop
  | .on i c => Api.InContract (s.stores i) c
  /- Not the names of rollups. -/
  | .pack i ns => ∀ n ∈ ns, n ∉ (s.stores i).hidden
  /- Layers that the pack has and the store does not have, and not without their parents. -/
  | .unpack i p ns => ∃ P, s.packs[p]? = some P ∧ s.Fits i P ns
  | .parents p => ∃ P, s.packs[p]? = some P

/-- The answers to a series of calls are as specified, up to the first call outside of the
contract. -/
inductive Explains [DecidableEq L] : State K V L → List (Req K V L × Ans K V L) → Prop
  | nil {s} : Explains s []
  | step {s c r s' rest} : InContract s c → Step s c r s' → s'.Consistent → Explains s' rest →
      Explains s ((c, r) :: rest)
  | out {s c r rest} : ¬ InContract s c → Explains s ((c, r) :: rest)

/-- The same, with the name that each call was free to use for a new layer: no call uses up
another name, but for the names of layers that are taken from a pack. -/
inductive ExplainsNames [DecidableEq L] : State K V L → List (Req K V L × Ans K V L × Nat) → Prop
  | nil {s} : ExplainsNames s []
  | step {s c r s' new rest} : InContract s c → Step s c r s' → s'.Consistent →
      (∀ i n, (s.stores i).Fresh n → n ≠ new → (∀ p ns, c = .unpack i p ns → n ∉ ns) →
        (s'.stores i).Fresh n) →
      ExplainsNames s' rest → ExplainsNames s ((c, r, new) :: rest)
  | out {s c r new rest} : ¬ InContract s c → ExplainsNames s ((c, r, new) :: rest)

end Verif.Net
