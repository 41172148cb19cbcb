import Verif.Model.LayerIter

/-!
Dictionaries and id maps.

`K` is the type of node and predicate strings, `V` the type of typed values
(`TypedDictEntry`). Only their total order is used, so the theorems hold for the
actual byte strings as for any other choice.
-/

namespace Verif

/-- `StringDict::id` / `TypedDict::id_entry` followed by `into_option` (external
crate tdb-succinct, used at src/layer/internal/mod.rs:229-247): the 1-based
position of an entry of a sorted dictionary. -/
def dictId {K : Type} [DecidableEq K] (d : List K) (k : K) : Option Nat :=
  if k ∈ d then some (d.idxOf k + 1) else none

/-- `StringDict::get` / `TypedDict::entry` (src/layer/internal/mod.rs:221-255): ids
are 1-based; 0 and ids past the end give nothing. -/
def dictGet {K : Type} (d : List K) (id : Nat) : Option K :=
  if id = 0 then none else d[id - 1]?

/-- `IdMap` (src/layer/id_map.rs:8-11): the sequence stored in the wavelet tree, if
there is one. -/
abbrev IdMap := Option (List Nat)

/-- `IdMap::outer_to_inner` (src/layer/id_map.rs:31-42). The outer `none` is a panic:
`id - 1` underflows or the lookup fails. -/
def outerToInner (m : IdMap) (id : Nat) : Option Nat :=
  match m with
  | none => some id
  | some l =>
    if id > l.length then some id
    else if id = 0 then none
    else if (id - 1) ∈ l then some (l.idxOf (id - 1) + 1) else none

/-- `IdMap::inner_to_outer` (src/layer/id_map.rs:44-56). -/
def innerToOuter (m : IdMap) (id : Nat) : Option Nat :=
  match m with
  | none => some id
  | some l =>
    if id > l.length then some id
    else if id = 0 then none
    else (l[id - 1]?).map (· + 1)

end Verif
