import Verif.NetSpec
import Verif.Model.Api

/-!
Model of several stores, each in memory or on disk, that one program uses, and of the packs with which it carries
layers from one to the other (`export_layers`, `import_layers` and `pack_layer_parents`,
src/store/mod.rs:882-901, src/storage/pack.rs). How a pack is made of files is in
`Verif/Model/Pack.lean` (C45, C46); here a pack is the list of the layers in it, each with the files
of the layer and its parent file, without the rollup file.
-/

namespace Verif.Net

open Store

variable {K V L : Type} [LinearOrder K] [LinearOrder V] [DecidableEq L]

/-- The layers in a pack, in the order in which they were asked for. -/
abbrev Pack (K V : Type) := List (Name × Entry K V)

/-- The stores and the packs. -/
structure Stores (K V L : Type) where
  stores : Nat → Api.Session K V L := fun _ => {}
  packs : List (Pack K V) := []

/-- New stores, those with `disk` in new directories and the others in memory
(src/store/mod.rs:903-960; see `Api.Session`). -/
def Stores.new (disk : Nat → Bool) : Stores K V L := { stores := fun i => { disk := disk i } }

/-- A store changes. -/
def Stores.set (N : Stores K V L) (i : Nat) (s : Api.Session K V L) : Stores K V L :=
  { N with stores := fun j => if j = i then s else N.stores j }

/-- `tar_append_layer` (src/storage/pack.rs:197-240): it fails if there is no such layer, and
leaves the rollup file out. -/
def packLayer (st : Store K V) (n : Name) : Option (Name × Entry K V) :=
  (st.get? n).map fun e => (n, { parent := e.parent, data := e.data })

/-- `export_layers` (src/storage/pack.rs:44-61). -/
def packLayers (st : Store K V) : List Name → Option (Pack K V)
  | [] => some []
  | n :: ns =>
    match packLayer st n, packLayers st ns with
    | some e, some P => some (e :: P)
    | _, _ => none

/-- The layer of that name in a pack; if it is there twice, it is the same. -/
def Pack.get? (P : Pack K V) (n : Name) : Option (Entry K V) := (P.find? (fun q => q.1 = n)).map Prod.snd

/-- Its parent, if it is in the pack and has one. -/
def Pack.parent? (P : Pack K V) (n : Name) : Option Name := (P.get? n).bind (·.parent)

/-- The files of the layers `ns` come into the store (src/storage/pack.rs:63-134). The order in
which they come makes no difference; here a layer comes before the layers on top of it. Names without
a place in this order are left out: they are on top of themselves. -/
def receiveAll (P : Pack K V) : Nat → List Name → Store K V → Store K V
  | 0, _, st => st
  | k + 1, ns, st =>
    match ns.find? (fun n => match P.parent? n with | some p => p ∉ ns | none => true) with
    | none => st
    | some n =>
      match P.get? n with
      | none => st
      | some e => receiveAll P k (ns.filter (· ≠ n)) ((n, e) :: st)

/-- `pack_layer_parents` (src/storage/pack.rs:266-305), before the map is put in order. -/
def listing (P : Pack K V) : List (Name × Option Name) :=
  P.foldr (fun q l => (q.1, q.2.parent) :: l.filter (fun r => r.1 ≠ q.1)) []

/-- What the code leaves open in one call. -/
structure Choice (K V L : Type) where
  call : Api.Choice K V L
  /-- The order of the map of parents. -/
  parents : List (Name × Option Name) → List (Name × Option Name)

/-- The choices that can happen: names are new in all stores. -/
structure Choice.Possible (ch : Choice K V L) (N : Stores K V L) : Prop where
  call : ∀ i, ch.call.Possible (N.stores i)
  parents : ∀ l, (ch.parents l).Perm l

/-- A call. Importing a name that is not in the pack, or that the store has already, is not
modelled here (see C47). The cache is not touched by an import (src/storage/pack.rs:317-323). -/
def Stores.call (N : Stores K V L) (ch : Choice K V L) : Req K V L → Ans K V L × Stores K V L
  | .on i c =>
    let r := (N.stores i).call ch.call c
    (.said r.1, N.set i r.2)
  | .pack i ns =>
    match packLayers (N.stores i).store ns with
    | some P => (.pack N.packs.length, { N with packs := N.packs ++ [P] })
    | none => (.failed, N)
  | .unpack i p ns =>
    match N.packs[p]? with
    | none => (.invalid, N)
    | some P =>
      if ns.all (fun n => (P.get? n).isSome && ((N.stores i).store.get? n).isNone) then
        (.done, N.set i { N.stores i with store := receiveAll P ns.length ns (N.stores i).store })
      else (.invalid, N)
  | .parents p =>
    match N.packs[p]? with
    | none => (.invalid, N)
    | some P => (.parents (ch.parents (listing P)), N)

/-- The calls that a program can make from a state on, with the answers that it can get. -/
inductive Trace : Stores K V L → List (Req K V L × Ans K V L) → Prop
  | nil {N} : Trace N []
  | call {N : Stores K V L} {ch : Choice K V L} {c rest} : ch.Possible N →
      Trace (N.call ch c).2 rest → Trace N ((c, (N.call ch c).1) :: rest)

/-- The same, with the name that each call was free to use for a new layer. -/
inductive NamedTrace : Stores K V L → List (Req K V L × Ans K V L × Name) → Prop
  | nil {N} : NamedTrace N []
  | call {N : Stores K V L} {ch : Choice K V L} {c rest} : ch.Possible N →
      NamedTrace (N.call ch c).2 rest → NamedTrace N ((c, (N.call ch c).1, ch.call.new) :: rest)

end Verif.Net
