import Verif.NetSpec
import Verif.ConcSpec

/-!
The specification of several stores that exchange layers by packs while many calls are under way:
each store behaves as the simple store of `Verif/ConcSpec.lean`, a pack is a set of layers that the
store has at one moment between the beginning and the end of the call that makes it, the layers of a
pack come into a store one by one, and at any time a name stands for the same layer in all stores.
-/

namespace Verif.Trade

open Spec

variable {K V L : Type}

/-- The calls with packs, which are given by their numbers. -/
inductive Req where
  /-- `export_layers` of the store `i`. -/
  | pack (i : Nat) (ns : List Nat)
  /-- `import_layers` of the store `i` from the pack `p`. -/
  | unpack (i p : Nat) (ns : List Nat)
  /-- `pack_layer_parents` of the pack `p`. -/
  | parents (p : Nat)
deriving DecidableEq

/-- Their answers. -/
inductive Ans where
  /-- A new pack gets the next number. -/
  | pack (p : Nat)
  | done
  | parents (l : List (Nat × Option Nat))
  | failed
  /-- There is no such pack, or the call is not modelled. -/
  | invalid
deriving DecidableEq

/-- What happens: something in a store, or a call with a pack begins, goes on or ends. -/
inductive Event (K V L : Type) where
  | on (i : Nat) (e : Conc.Event K V L)
  | inv (t : Nat) (c : Req)
  | act (t : Nat)
  | ret (t : Nat) (r : Ans)
deriving DecidableEq

/-- How far a call with a pack has come. -/
inductive Job (K V : Type) where
  | asked (c : Req)
  /-- The layers `ns` of the pack are still to come into the store `i`. -/
  | taking (i : Nat) (X : Net.Shipment K V) (ns : List Nat)
  | answered (r : Ans)

/-- The stores, all empty at first, the packs that were made, and the calls with packs. -/
structure State (K V L : Type) where
  stores : Nat → Conc.CState K V L := fun _ => {}
  packs : List (Net.Shipment K V) := []
  jobs : Nat → Option (Job K V) := fun _ => none

namespace State

/-- The stores without the calls under way. -/
def net (A : State K V L) : Net.State K V L :=
  { stores := fun i => (A.stores i).now, packs := A.packs }

/-- A store changes. -/
def set (A : State K V L) (i : Nat) (a : Conc.CState K V L) : State K V L :=
  { A with stores := fun j => if j = i then a else A.stores j }

/-- A call is this far. -/
def does (A : State K V L) (t : Nat) (j : Option (Job K V)) : State K V L :=
  { A with jobs := fun u => if u = t then j else A.jobs u }

/-- The layer is coming into the store. -/
def Coming (A : State K V L) (i n : Nat) : Prop :=
  ∃ t X ns, A.jobs t = some (.taking i X ns) ∧ n ∈ ns

/-- The layer is being committed. -/
def Closing (A : State K V L) (i n : Nat) : Prop :=
  ∃ t b cs load x, (A.stores i).calls t = some (.closing b cs load) ∧
    (A.stores i).now.builders[b]? = some x ∧ x.name = n

/-- The call asks for a layer that is coming. -/
def Early (A : State K V L) (i t : Nat) : Prop :=
  ∃ c k n, (A.stores i).calls t = some (.asked c k) ∧ n ∈ Conc.asks c ∧ A.Coming i n

/-- The call may go on. -/
def InContract (A : State K V L) : Job K V → Prop
  /- Not the names of rollups and of layers that are being written. -/
  | .asked (.pack i ns) =>
    ∀ n ∈ ns, n ∉ (A.stores i).now.hidden ∧ ¬ A.Closing i n ∧ ¬ A.Coming i n
  /- Layers that the pack has and the store does not have, and not without their parents. -/
  | .asked (.unpack i p ns) => ∃ X, A.packs[p]? = some X ∧ A.net.Fits i X ns ∧
    ∀ n ∈ ns, ¬ A.Coming i n
  | .asked (.parents p) => ∃ X, A.packs[p]? = some X
  | _ => True

end State

/-- How a call with a pack may change the state, and how far it is then. -/
inductive Effect : State K V L → Job K V → State K V L → Job K V → Prop
  | pack {A i ns} : (∀ n ∈ ns, A.net.has i n) →
      Effect A (.asked (.pack i ns))
        { A with packs := A.packs ++ [fun n => if n ∈ ns then some (A.net.layer i n) else none] }
        (.answered (.pack A.packs.length))
  | packFailed {A i ns} : (∃ n ∈ ns, ¬ A.net.has i n) →
      Effect A (.asked (.pack i ns)) A (.answered .failed)
  | unpack {A i p X ns} : A.packs[p]? = some X →
      Effect A (.asked (.unpack i p ns)) A (.taking i X ns)
  /-- A layer comes into the store, after its parent. -/
  | take {A i X ns n x} : n ∈ ns → X n = some x → (A.stores i).now.Fresh n →
      (∀ p, x.parent = some p → A.net.has i p) →
      Effect A (.taking i X ns)
        (A.set i { A.stores i with
          now := Net.receive X (A.stores i).now n
          past := (A.stores i).now :: (A.stores i).past })
        (.taking i X (ns.filter (· ≠ n)))
  | taken {A i X} : Effect A (.taking i X []) A (.answered .done)
  | parents {A p X l} : A.packs[p]? = some X → (l.map Prod.fst).Nodup →
      (∀ n q, (n, q) ∈ l ↔ ∃ x, X n = some x ∧ x.parent = q) →
      Effect A (.asked (.parents p)) A (.answered (.parents l))

/-- What may happen next. -/
inductive Goes [DecidableEq L] : State K V L → Event K V L → State K V L → Prop
  /-- Layers that are made have names that no store has. -/
  | on {A i e a} : Conc.Goes (A.stores i) e a → (∀ t new, e = .act t new → ¬ A.Early i t) →
      (∀ n, a.now.log.known n → A.net.has i n ∨ ∀ j, ¬ A.net.has j n) →
      Goes A (.on i e) (A.set i a)
  | inv {A t c} : A.jobs t = none → Goes A (.inv t c) (A.does t (some (.asked c)))
  /-- A step without an effect. -/
  | skip {A t j} : A.jobs t = some j → A.InContract j → Goes A (.act t) A
  | act {A t j A' j'} : A.jobs t = some j → A.InContract j → Effect A j A' j' →
      Goes A (.act t) (A'.does t (some j'))
  | ret {A t r} : A.jobs t = some (.answered r) → Goes A (.ret t r) (A.does t none)

/-- A call is outside of the contract, and goes on nevertheless. -/
def State.Leaves (A : State K V L) : Event K V L → Prop
  | .on i e => (A.stores i).Leaves e ∨ ∃ t new, e = .act t new ∧ A.Early i t
  | .act t => ∃ j, A.jobs t = some j ∧ ¬ A.InContract j
  | _ => False

/-- What happens is as specified, up to the first step of a call outside of the contract, and a
name stands for the same layer in all stores. -/
inductive Allowed [DecidableEq L] : State K V L → List (Event K V L) → Prop
  | nil {A} : Allowed A []
  | cons {A e A' rest} : Goes A e A' → A'.net.Consistent → Allowed A' rest → Allowed A (e :: rest)
  | out {A e rest} : A.Leaves e → Allowed A (e :: rest)

/-- It is as specified, and no call is outside of the contract. -/
inductive Kept [DecidableEq L] : State K V L → List (Event K V L) → State K V L → Prop
  | nil {A} : Kept A [] A
  | cons {A e A' rest B} : Goes A e A' → A'.net.Consistent → Kept A' rest B →
      Kept A (e :: rest) B

/-- What happens in the store `i`. -/
def within (i : Nat) (evs : List (Event K V L)) : List (Conc.Event K V L) :=
  evs.filterMap fun e => match e with
    | .on j e => if j = i then some e else none
    | _ => none

/-- The calls with packs that end, with their answers; `cur` are those that are under way. -/
def pairs (cur : Nat → Option Req) : List (Event K V L) → List (Req × Ans)
  | [] => []
  | .inv t c :: evs => pairs (fun u => if u = t then some c else cur u) evs
  | .ret t r :: evs => (cur t).toList.map (·, r) ++ pairs cur evs
  | _ :: evs => pairs cur evs

/-- A step of a call was outside of the contract. -/
def Left [DecidableEq L] (A : State K V L) (evs : List (Event K V L)) : Prop :=
  ∃ pre e post B, evs = pre ++ e :: post ∧ Kept A pre B ∧ B.Leaves e

end Verif.Trade
