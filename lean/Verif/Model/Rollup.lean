import Verif.Model.SimpleBuilder

/-!
Model of rollups and squashes: `src/layer/id_map.rs`, `src/storage/delta.rs` and the
`squash` operations of `src/storage/layer.rs`, on the contents of the layers. Lists
of layers are topmost first. A panic is `none`.
-/

namespace Verif

open SimpleBuilder

variable {K V : Type}

/-- The dictionaries and id maps of one layer, as they are collected at
src/storage/delta.rs:149-200 and src/layer/id_map.rs:188-211. -/
structure DictLevel (K V : Type) where
  nodes : List K
  preds : List K
  values : List V
  nvMap : IdMap
  pMap : IdMap

/-- The dictionaries and id maps of a layer (src/layer/id_map.rs:188-211). -/
def LayerData.dictLevel (d : LayerData K V) : DictLevel K V :=
  ⟨d.nodes, d.preds, d.values, d.nvMap, d.pMap⟩

/-- The dictionaries and id maps of a loaded layer as `dictionary_rollup_upto` collects
them (src/storage/delta.rs:154-200): the list of predicate id maps is filled with
the node and value id maps (lines 192-200). -/
def LayerData.dictLevelMem (d : LayerData K V) : DictLevel K V :=
  ⟨d.nodes, d.preds, d.values, d.nvMap, d.nvMap⟩

namespace Rollup

/-- The entries of one dictionary with their ids: entry number `i` has the inner id
`i + skip + 1`, and `off` ids are in use below (src/layer/id_map.rs:98-102, 113-118,
128-133; src/storage/layer.rs:1870-1913, 2049-2087). -/
def levelEntries {α : Type} (m : IdMap) (skip off : Nat) : Nat → List α →
    Option (List (α × Nat))
  | _, [] => some []
  | i, a :: l => do
    let x ← innerToOuter m (i + skip + 1)
    let r ← levelEntries m skip off (i + 1) l
    return (a, x + off) :: r

/-- The number of nodes and values in the given layers. -/
def nvTotal : List (DictLevel K V) → Nat
  | [] => 0
  | l :: ls => nvTotal ls + (l.nodes.length + l.values.length)

/-- The number of predicates in the given layers. -/
def pTotal : List (DictLevel K V) → Nat
  | [] => 0
  | l :: ls => pTotal ls + l.preds.length

/-- All nodes with their ids, from the lowest layer up (src/layer/id_map.rs:92-105,
src/storage/layer.rs:1870-1885, 2040-2061). -/
def nodeEntries (off : Nat) : List (DictLevel K V) → Option (List (K × Nat))
  | [] => some []
  | l :: ls => do
    let r ← nodeEntries off ls
    let a ← levelEntries l.nvMap 0 (off + nvTotal ls) 0 l.nodes
    return r ++ a

/-- All values with their ids, from the lowest layer up (src/layer/id_map.rs:107-121,
src/storage/layer.rs:1897-1913, 2075-2087). -/
def valueEntries (off : Nat) : List (DictLevel K V) → Option (List (V × Nat))
  | [] => some []
  | l :: ls => do
    let r ← valueEntries off ls
    let a ← levelEntries l.nvMap l.nodes.length (off + nvTotal ls) 0 l.values
    return r ++ a

/-- All predicates with their ids, from the lowest layer up
(src/layer/id_map.rs:123-136, src/storage/layer.rs:1886-1896, 2062-2074). -/
def predEntries (off : Nat) : List (DictLevel K V) → Option (List (K × Nat))
  | [] => some []
  | l :: ls => do
    let r ← predEntries off ls
    let a ← levelEntries l.pMap 0 (off + pTotal ls) 0 l.preds
    return r ++ a

/-- `merge_string_dictionaries` and `merge_typed_dictionaries` (external crate, used at
src/storage/delta.rs:202-208): the entries of all dictionaries in order, given to a
dictionary builder. -/
def mergeDicts {α : Type} [LinearOrder α] (ds : List (List α)) : Option (List α) :=
  dictBuild (isort ds.flatten)

/-- `construct_idmaps_from_structures` (src/layer/id_map.rs:78-182): the sequences that
become the two wavelet trees. `sorted_iterator` (external crate) over the sorted
dictionaries with a comparison of the entries is modelled by sorting all entries,
equal entries by id. -/
def constructIdmaps [LinearOrder K] [LinearOrder V] (ls : List (DictLevel K V)) :
    Option (IdMap × IdMap) := do
  let ns ← nodeEntries 0 ls
  let vs ← valueEntries 0 ls
  let ps ← predEntries 0 ls
  return (some ((sortEntries ns).map (fun q => q.2 - 1) ++ (sortEntries vs).map (fun q => q.2 - 1)),
    some ((sortEntries ps).map (fun q => q.2 - 1)))

/-- The dictionary part of a rollup: `dictionary_rollup`, `dictionary_rollup_upto` and
`memory_dictionary_rollup_upto` (src/storage/delta.rs:142-268). -/
def dictionaries [LinearOrder K] [LinearOrder V] (ls : List (DictLevel K V)) :
    Option (DictLevel K V) := do
  let nodes ← mergeDicts (ls.map (·.nodes)).reverse
  let preds ← mergeDicts (ls.map (·.preds)).reverse
  let values ← mergeDicts (ls.map (·.values)).reverse
  let (nm, pm) ← constructIdmaps ls
  return ⟨nodes, preds, values, nm, pm⟩

/-- `delta_rollup` (src/storage/delta.rs:270-299): the base layer written for a layer
whose stack is `S`. -/
def deltaRollup [LinearOrder K] [LinearOrder V] (S : List (LayerData K V)) :
    Option (LayerData K V) := do
  let l ← dictionaries (S.map (·.dictLevel))
  let ts ← Stack.triples S
  let pos ← buildIndex false ts
  return { nodes := l.nodes, preds := l.preds, values := l.values, nvMap := l.nvMap,
           pMap := l.pMap, pos := pos }

/-- The merged additions and removals of some layers:
`InternalTripleStackIterator::from_layer_stack` (src/layer/internal/subject_iterator.rs:329-363),
`layer_changes_upto` (src/storage/layer.rs:335-352) and `merge`
(src/layer/internal/subject_iterator.rs:375-388). -/
def stackMerged (T : List (LayerData K V)) : Merged (Option SubjIter) :=
  ⟨T.map (fun d => some d.pos.iter), T.map (fun d => d.neg.map (·.iter))⟩

/-- A bound for the number of changes. -/
def changeFuel : List (LayerData K V) → Nat
  | [] => 1
  | d :: T => changeFuel T + d.pos.spo.rightCount +
      (match d.neg with | none => 0 | some x => x.spo.rightCount)

/-- All changes that a stack iterator over some layers yields. -/
def changes (T : List (LayerData K V)) : Option (List (TripleChange × Triple)) :=
  Merged.changes subjOps (changeFuel T) (stackMerged T)

/-- The additions among the changes (src/storage/delta.rs:332-335, 402-405). -/
def additions (cs : List (TripleChange × Triple)) : List Triple :=
  (cs.filter (fun q => q.1 = .addition)).map Prod.snd

/-- The removals among the changes (src/storage/delta.rs:337-340, 406-409). -/
def removals (cs : List (TripleChange × Triple)) : List Triple :=
  (cs.filter (fun q => q.1 = .removal)).map Prod.snd

/-- The child layer written from dictionaries and changes, loaded on top of the parent
stack `S` (src/storage/delta.rs:376-433, 310-364; src/layer/internal/child.rs:64-197). -/
def writeDelta (l : DictLevel K V) (cs : List (TripleChange × Triple))
    (S : List (LayerData K V)) : Option (LayerData K V) := do
  let pos ← buildIndex true (additions cs)
  let neg ← buildIndex true (removals cs)
  return { nodes := l.nodes, preds := l.preds, values := l.values, nvMap := l.nvMap,
           pMap := l.pMap, parentNV := Stack.nvCount S, parentP := Stack.pCount S,
           pos := pos, neg := some neg }

/-- `delta_rollup_upto` (src/storage/delta.rs:367-434): `mem` are the loaded layers above
the bound, `disk` the stored layers from the bound down to and without `upto`, `S`
the stack of `upto`. -/
def deltaRollupUpto [LinearOrder K] [LinearOrder V] (mem disk S : List (LayerData K V)) :
    Option (LayerData K V) := do
  let l ← dictionaries (mem.map (·.dictLevelMem) ++ disk.map (·.dictLevel))
  let cs ← changes (disk ++ mem)
  writeDelta l cs S

/-- `imprecise_delta_rollup_upto` (src/storage/delta.rs:301-365): `mem` are the loaded
layers above the bound, `S` the stack of `upto`, which is written as the parent. -/
def impreciseDeltaRollupUpto [LinearOrder K] [LinearOrder V] (mem S : List (LayerData K V)) :
    Option (LayerData K V) := do
  let l ← dictionaries (mem.map (·.dictLevel))
  let cs ← changes mem
  writeDelta l cs S

/-! ### Squash -/

/-- Set the bit of an id that is not below `off`, out of range is a panic
(src/storage/layer.rs:1857-1862 with `off = 0`, 2025-2033). -/
def markSlot (off : Nat) (l : List Bool) (id : Nat) : Option (List Bool) :=
  if id ≥ off then setBit l (id - off) else some l

/-- The prepass over the triples (src/storage/layer.rs:1854-1862, 2011-2034). -/
def markSlots (nv p : Nat) : List Triple → List Bool × List Bool →
    Option (List Bool × List Bool)
  | [], q => some q
  | t :: ts, (n, m) => do
    let n ← markSlot nv n t.s
    let m ← markSlot p m t.p
    let n ← markSlot nv n t.o
    markSlots nv p ts (n, m)

/-- Keep the entries in use (src/storage/layer.rs:1879-1883, 2055-2059); out of range is a
panic. -/
def usedEntries {α : Type} (off : Nat) (used : List Bool) :
    List (α × Nat) → Option (List (α × Nat))
  | [] => some []
  | (a, id) :: m =>
    if id < off then none
    else
      match used[id - off]? with
      | none => none
      | some b => do
        let r ← usedEntries off used m
        return if b then (a, id) :: r else r

/-- Fill a conversion map: entry number `i` gets the id `first + i`
(src/storage/layer.rs:1923-1936, 2095-2109). -/
def fillSlots {α : Type} (off : Nat) : Nat → List (α × Nat) → List Nat → Option (List Nat)
  | _, [], m => some m
  | first, (_, old) :: l, m =>
    if old ≥ off ∧ old - off < m.length then
      fillSlots off (first + 1) l (m.set (old - off) first)
    else none

/-- Map an id; ids up to `off` are kept (src/storage/layer.rs:2140-2154;
src/storage/layer.rs:1946-1952 with `off = 0`, where id 0 is mapped to the initial 0 of
slot 0). -/
def mapSlot (off : Nat) (m : List Nat) (id : Nat) : Option Nat :=
  if id ≤ off then some id else m[id - off]?

/-- Map a triple. -/
def mapTriple (nv p : Nat) (nm pm : List Nat) (t : Triple) : Option Triple := do
  let s ← mapSlot nv nm t.s
  let q ← mapSlot p pm t.p
  let o ← mapSlot nv nm t.o
  return ⟨s, q, o⟩

/-- Map all triples. -/
def mapTriples (nv p : Nat) (nm pm : List Nat) : List Triple → Option (List Triple)
  | [] => some []
  | t :: ts => do
    let t' ← mapTriple nv p nm pm t
    let ts' ← mapTriples nv p nm pm ts
    return t' :: ts'

/-- The dictionaries of a squash and its two conversion maps: `ls` are the layers whose
dictionaries are collected, `nv` and `p` the counts below them, `ts` the triples
whose entries are in use (src/storage/layer.rs:1839-1936, 1996-2109). -/
def squashDicts [LinearOrder K] [LinearOrder V] (nv p : Nat) (ls : List (DictLevel K V))
    (ts : List Triple) : Option (List K × List K × List V × List Nat × List Nat) := do
  let (nvUsed, pUsed) ← markSlots nv p ts
    (List.replicate (nvTotal ls + 1) false, List.replicate (pTotal ls + 1) false)
  let ns ← nodeEntries nv ls
  let ns ← usedEntries nv nvUsed ns
  let ps ← predEntries p ls
  let ps ← usedEntries p pUsed ps
  let vs ← valueEntries nv ls
  let vs ← usedEntries nv nvUsed vs
  let ns := sortEntries ns
  let ps := sortEntries ps
  let vs := sortEntries vs
  let nm ← fillSlots nv (nv + 1) ns (List.replicate (nvTotal ls + 1) 0)
  let nm ← fillSlots nv (nv + ns.length + 1) vs nm
  let pm ← fillSlots p (p + 1) ps (List.replicate (pTotal ls + 1) 0)
  return (ns.map Prod.fst, ps.map Prod.fst, vs.map Prod.fst, nm, pm)

/-- `squash` (src/storage/layer.rs:1831-1961). -/
def squash [LinearOrder K] [LinearOrder V] (S : List (LayerData K V)) :
    Option (LayerData K V) := do
  let ts ← Stack.triples S
  let (ns, ps, vs, nm, pm) ← squashDicts 0 0 (S.map (·.dictLevel)) ts
  let ts ← mapTriples 0 0 nm pm ts
  buildBase ns ps vs (isort ts)

/-- `squash_upto` (src/storage/layer.rs:1963-2188): `T` are the stored layers above `upto`,
`S` the stack of `upto`, `nv` and `p` the counts of `upto` as added up from the
stored counts (lines 1964-1974). The sorted changes are added to two separate
builders, so the additions and the removals are each in order. -/
def squashUpto [LinearOrder K] [LinearOrder V] (nv p : Nat) (T S : List (LayerData K V)) :
    Option (LayerData K V) := do
  let cs ← changes T
  let (ns, ps, vs, nm, pm) ← squashDicts nv p (T.map (·.dictLevel)) (additions cs)
  let as ← mapTriples nv p nm pm (additions cs)
  let rs ← mapTriples nv p nm pm (removals cs)
  let ns ← dictBuild ns
  let ps ← dictBuild ps
  let vs ← dictBuild vs
  let pos ← buildIndex true (isort as)
  let neg ← buildIndex true (isort rs)
  return { nodes := ns, preds := ps, values := vs, parentNV := Stack.nvCount S,
           parentP := Stack.pCount S, pos := pos, neg := some neg }

end Rollup

end Verif
