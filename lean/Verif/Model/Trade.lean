import Verif.TradeSpec
import Verif.Model.Net
import Verif.Model.Conc

/-!
Model of several stores that many calls use at the same time, and of the packs with which layers
are carried from one to another (`export_layers`, `import_layers` and `pack_layer_parents`,
src/store/mod.rs:882-901, src/storage/pack.rs) while other calls go on. The stores are those of
`Verif/Model/Conc.lean`, the packs are those of `Verif/Model/Net.lean`.

These are one step each: reading the files of one layer for a pack, which do not change once they
are written (the rollup file, which does, is left out); writing the files of one layer from a pack.
The layers of a pack come in any order in which a layer comes before the layers on top of it; in the
code the files come in the order of the pack, and the layers are finished in the order of a hash set
(src/storage/pack.rs:79-133), but nobody may ask for a layer that is coming (`State.InContract`).
-/

namespace Verif.Trade

open Store Net

variable {K V L : Type} [LinearOrder K] [LinearOrder V] [DecidableEq L]

/-- How far a call with a pack has come. -/
inductive Stage (K V : Type) where
  | asked (c : Req)
  /-- The layers in the pack so far, and those that are still to be read
  (src/storage/pack.rs:54-56). -/
  | packing (i : Nat) (left : List Name) (P : Pack K V)
  /-- The directories are made (src/storage/pack.rs:68-72), and these layers are still to be
  written. -/
  | unpacking (i : Nat) (P : Pack K V) (left : List Name)
  | answered (r : Ans)

/-- The stores, the packs and the calls with packs that are under way. -/
structure Shops (K V L : Type) where
  shops : Nat → Conc.Shop K V L := fun _ => {}
  packs : List (Pack K V) := []
  jobs : Nat → Option (Stage K V) := fun _ => none

namespace Shops

/-- New stores, those with `disk` in new directories and the others in memory
(src/store/mod.rs:903-960). -/
def new (disk : Nat → Bool) : Shops K V L := { shops := fun i => { session := { disk := disk i } } }

/-- A store changes. -/
def set (N : Shops K V L) (i : Nat) (M : Conc.Shop K V L) : Shops K V L :=
  { N with shops := fun j => if j = i then M else N.shops j }

/-- A call is this far. -/
def does (N : Shops K V L) (t : Nat) (j : Option (Stage K V)) : Shops K V L :=
  { N with jobs := fun u => if u = t then j else N.jobs u }

/-- The files of a layer come into a store (src/storage/pack.rs:104-133). The cache is not touched
(src/storage/pack.rs:317-323). -/
def bring (N : Shops K V L) (i : Nat) (n : Name) (e : Entry K V) : Shops K V L :=
  N.set i { N.shops i with session :=
    { (N.shops i).session with store := (n, e) :: (N.shops i).session.store } }.seeing

end Shops

/-- One step of a call with a pack. -/
inductive Acts : Shops K V L → Stage K V → Shops K V L → Stage K V → Prop
  /- `export_layers` (src/storage/pack.rs:44-61). -/
  | pack {N i ns} : Acts N (.asked (.pack i ns)) N (.packing i ns [])
  | read {N : Shops K V L} {i n left P q} : packLayer (N.shops i).session.store n = some q →
      Acts N (.packing i (n :: left) P) N (.packing i left (P ++ [q]))
  | missing {N : Shops K V L} {i n left P} : packLayer (N.shops i).session.store n = none →
      Acts N (.packing i (n :: left) P) N (.answered .failed)
  | packed {N i P} : Acts N (.packing i [] P) { N with packs := N.packs ++ [P] }
      (.answered (.pack N.packs.length))
  /- `import_layers` (src/storage/pack.rs:63-134). Importing a name that is not in the pack, or that
  the store has already, is not modelled here (see C47). -/
  | unpack {N : Shops K V L} {i p ns} {P : Pack K V} : N.packs[p]? = some P →
      ns.all (fun n => (P.get? n).isSome && ((N.shops i).session.store.get? n).isNone) = true →
      Acts N (.asked (.unpack i p ns)) N (.unpacking i P ns)
  | unpackInvalid {N : Shops K V L} {i p ns} :
      (∀ P, N.packs[p]? = some P → ns.all (fun n =>
        (P.get? n).isSome && ((N.shops i).session.store.get? n).isNone) = false) →
      Acts N (.asked (.unpack i p ns)) N (.answered .invalid)
  | write {N i n e left} {P : Pack K V} : n ∈ left → P.get? n = some e →
      (∀ p, P.parent? n = some p → p ∉ left) →
      Acts N (.unpacking i P left) (N.bring i n e) (.unpacking i P (left.filter (· ≠ n)))
  | written {N i P} : Acts N (.unpacking i P []) N (.answered .done)
  /- `pack_layer_parents` (src/storage/pack.rs:266-305): a map, in any order. -/
  | parents {N : Shops K V L} {p P l} : N.packs[p]? = some P → l.Perm (listing P) →
      Acts N (.asked (.parents p)) N (.answered (.parents l))
  | parentsInvalid {N : Shops K V L} {p} : N.packs[p]? = none →
      Acts N (.asked (.parents p)) N (.answered .invalid)

/-- What can happen next. Names are new in all stores. -/
inductive Next : Shops K V L → Option (Event K V L) → Shops K V L → Prop
  | on {N : Shops K V L} {i e M} : Conc.Next (N.shops i) e M →
      (∀ t new, e = some (.act t new) → ∀ j, (N.shops j).session.store.get? new = none ∧
        ∀ b ∈ (N.shops j).session.builders, b.name ≠ new) →
      Next N (e.map (.on i)) (N.set i M)
  | inv {N : Shops K V L} {t c} : N.jobs t = none →
      Next N (some (.inv t c)) (N.does t (some (.asked c)))
  | act {N N' : Shops K V L} {t j j'} : N.jobs t = some j → Acts N j N' j' →
      Next N (some (.act t)) (N'.does t (some j'))
  | ret {N : Shops K V L} {t r} : N.jobs t = some (.answered r) →
      Next N (some (.ret t r)) (N.does t none)

/-- What can happen from one state to another. -/
inductive Runs : Shops K V L → List (Event K V L) → Shops K V L → Prop
  | nil {N} : Runs N [] N
  | cons {N e N' rest N''} : Next N e N' → Runs N' rest N'' → Runs N (e.toList ++ rest) N''

end Verif.Trade
