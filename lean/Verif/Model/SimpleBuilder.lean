import Mathlib.Data.Prod.Lex
import Verif.Model.Layer

/-!
Model of `src/layer/simple_builder.rs` and of the dictionary and triple phases of
`BaseLayerFileBuilder` and `ChildLayerFileBuilder` it drives. A panic is `none`.
-/

namespace Verif

variable {K V : Type}

/-- `SimpleLayerBuilder` (src/layer/simple_builder.rs:52-66). `parent` is the stack
of the parent layer, empty when there is none. The two hash maps are association
lists; `commit` is shown not to depend on their order. Name and files are left
out. -/
structure SimpleBuilder (K V : Type) where
  parent : List (LayerData K V)
  adds : List Triple := []
  rems : List Triple := []
  nvMap : List (Obj K V × Nat) := []
  pMap : List (K × Nat) := []
  nvMapCount : Nat
  pMapCount : Nat
  nodeCount : Nat := 0
  predCount : Nat := 0
  valCount : Nat := 0

/-- `HashMap::get` on an association list. -/
def assocGet {α : Type} [DecidableEq α] (m : List (α × Nat)) (a : α) : Option Nat :=
  (m.find? (fun q => decide (q.1 = a))).map Prod.snd

namespace SimpleBuilder

/-- `new` (src/layer/simple_builder.rs:70-86) for an empty `S`, `from_parent`
(src/layer/simple_builder.rs:89-107) otherwise. -/
def new (S : List (LayerData K V)) : SimpleBuilder K V :=
  { parent := S, nvMapCount := Stack.nvCount S, pMapCount := Stack.pCount S }

section Calc
variable [DecidableEq K] [DecidableEq V]

/-- A new temporary id for a node or value (src/layer/simple_builder.rs:123-128,
165-170, 178-183). -/
def freshNV (b : SimpleBuilder K V) (o : Obj K V) : Nat × SimpleBuilder K V :=
  (b.nvMapCount + 1,
    { b with nvMapCount := b.nvMapCount + 1,
             nodeCount := match o with | .node _ => b.nodeCount + 1 | .value _ => b.nodeCount,
             valCount := match o with | .node _ => b.valCount | .value _ => b.valCount + 1,
             nvMap := (o, b.nvMapCount + 1) :: b.nvMap })

/-- The id of a node or value: from the map, from the parent, or new
(src/layer/simple_builder.rs:113-131 for subjects, 153-185 for objects; a subject
is handled as the node it is, `subject_id` and `object_node_id` being the same
function). -/
def internNV (b : SimpleBuilder K V) (o : Obj K V) : Option (Nat × SimpleBuilder K V) :=
  match assocGet b.nvMap o with
  | some n => some (n, b)
  | none => do
    let r ← Stack.objectId b.parent o
    match r with
    | some n => return (n, { b with nvMap := (o, n) :: b.nvMap })
    | none => return b.freshNV o

/-- The id of a predicate (src/layer/simple_builder.rs:133-152). -/
def internP (b : SimpleBuilder K V) (p : K) : Option (Nat × SimpleBuilder K V) :=
  match assocGet b.pMap p with
  | some n => some (n, b)
  | none => do
    let r ← Stack.predId b.parent p
    match r with
    | some n => return (n, { b with pMap := (p, n) :: b.pMap })
    | none =>
      return (b.pMapCount + 1,
        { b with pMapCount := b.pMapCount + 1, predCount := b.predCount + 1,
                 pMap := (p, b.pMapCount + 1) :: b.pMap })

/-- `calculate_triple` (src/layer/simple_builder.rs:109-188). -/
def calculateTriple (b : SimpleBuilder K V) (t : VTriple K V) :
    Option (Triple × SimpleBuilder K V) := do
  let (s, b) ← b.internNV (.node t.s)
  let (p, b) ← b.internP t.p
  let (o, b) ← b.internNV t.o
  return (⟨s, p, o⟩, b)

/-- `add_value_triple` (src/layer/simple_builder.rs:200-203). -/
def addValueTriple (b : SimpleBuilder K V) (t : VTriple K V) : Option (SimpleBuilder K V) := do
  let (u, b) ← b.calculateTriple t
  return { b with adds := b.adds ++ [u] }

/-- `add_id_triple` (src/layer/simple_builder.rs:205-207). -/
def addIdTriple (b : SimpleBuilder K V) (t : Triple) : SimpleBuilder K V :=
  { b with adds := b.adds ++ [t] }

/-- `remove_value_triple` (src/layer/simple_builder.rs:209-212). -/
def removeValueTriple (b : SimpleBuilder K V) (t : VTriple K V) :
    Option (SimpleBuilder K V) := do
  let (u, b) ← b.calculateTriple t
  return { b with rems := b.rems ++ [u] }

/-- `remove_id_triple` (src/layer/simple_builder.rs:214-216). -/
def removeIdTriple (b : SimpleBuilder K V) (t : Triple) : SimpleBuilder K V :=
  { b with rems := b.rems ++ [t] }

/-- A call on the builder (`LayerBuilder`, src/layer/simple_builder.rs:20-50). -/
inductive Op (K V : Type) where
  | addValue (t : VTriple K V)
  | addId (t : Triple)
  | removeValue (t : VTriple K V)
  | removeId (t : Triple)
deriving DecidableEq

/-- One call. -/
def step (b : SimpleBuilder K V) : Op K V → Option (SimpleBuilder K V)
  | .addValue t => b.addValueTriple t
  | .addId t => some (b.addIdTriple t)
  | .removeValue t => b.removeValueTriple t
  | .removeId t => some (b.removeIdTriple t)

/-- A sequence of calls. -/
def run (b : SimpleBuilder K V) : List (Op K V) → Option (SimpleBuilder K V)
  | [] => some b
  | op :: ops => do
    let b ← b.step op
    b.run ops

end Calc

/-- The all zero triple that marks a no-op. -/
def zeroTriple : Triple := ⟨0, 0, 0⟩

/-- A removal that mentions anything unknown to the parent becomes a no-op
(src/layer/simple_builder.rs:261-268, 275-282). -/
def clearRemoval (nv p : Nat) (t : Triple) : Triple :=
  if t.s > nv ∨ t.p > p ∨ t.o > nv then zeroTriple else t

/-- The no-op loop over the sorted additions and removals
(src/layer/simple_builder.rs:249-290), for the current addition `a`. `rest` is the
loop from the next addition on. -/
def noopsFrom (nv p : Nat) (a : Triple) (as : List Triple)
    (rest : List Triple → List Triple × List Triple) : List Triple → List Triple × List Triple
  | [] => (a :: as, [])
  | r :: rs =>
    if a < r then
      let q := rest (r :: rs)
      (a :: q.1, q.2)
    else if r < a then
      let q := noopsFrom nv p a as rest rs
      (q.1, clearRemoval nv p r :: q.2)
    else
      let q := rest rs
      (zeroTriple :: q.1, zeroTriple :: q.2)

/-- The no-op loop (src/layer/simple_builder.rs:249-290). -/
def noops (nv p : Nat) : List Triple → List Triple → List Triple × List Triple
  | [], rs => ([], rs.map (clearRemoval nv p))
  | a :: as, rs => noopsFrom nv p a as (fun rs => noops nv p as rs) rs

/-- `BitVec::set`, out of range is a panic. -/
def setBit (l : List Bool) (i : Nat) : Option (List Bool) :=
  if i < l.length then some (l.set i true) else none

/-- Mark one id if it is not an id of the parent
(src/layer/simple_builder.rs:296-309). -/
def markId (off : Nat) (l : List Bool) (id : Nat) : Option (List Bool) :=
  if id > off then setBit l (id - off - 1) else some l

/-- The existence check (src/layer/simple_builder.rs:293-310): the bits of the nodes
and values and of the predicates that are used by a triple. -/
def markAll (nv p : Nat) : List Triple → List Bool × List Bool → Option (List Bool × List Bool)
  | [], q => some q
  | t :: ts, (n, m) => do
    let n ← markId nv n t.s
    let m ← markId p m t.p
    let n ← markId nv n t.o
    markAll nv p ts (n, m)

/-- Collect the new entries of a map that are in use
(src/layer/simple_builder.rs:316-342); an index out of range is a panic. -/
def collectUsed {α : Type} (off : Nat) (used : List Bool) :
    List (α × Nat) → Option (List (α × Nat))
  | [] => some []
  | (a, id) :: m =>
    if id ≤ off then collectUsed off used m
    else
      match used[id - off - 1]? with
      | none => none
      | some true => do
        let r ← collectUsed off used m
        return (a, id) :: r
      | some false => collectUsed off used m

/-- The nodes among the collected entries (src/layer/simple_builder.rs:325-328). -/
def pickNodes (l : List (Obj K V × Nat)) : List (K × Nat) :=
  l.filterMap (fun q => match q.1 with | .node k => some (k, q.2) | .value _ => none)

/-- The values among the collected entries (src/layer/simple_builder.rs:325-328). -/
def pickValues (l : List (Obj K V × Nat)) : List (V × Nat) :=
  l.filterMap (fun q => match q.1 with | .node _ => none | .value v => some (v, q.2))

/-- `sort` on pairs of an entry and its id (src/layer/simple_builder.rs:344-346). -/
def sortEntries {α : Type} [LinearOrder α] (l : List (α × Nat)) : List (α × Nat) :=
  (isort (l.map toLex)).map ofLex

/-- One loop over enumerated entries filling a conversion map
(src/layer/simple_builder.rs:351-363): entry number `i` gets the id `first + i`. -/
def fillMap {α : Type} (off : Nat) : Nat → List (α × Nat) → List Nat → Option (List Nat)
  | _, [], m => some m
  | first, (_, old) :: l, m =>
    if old > off ∧ old - off - 1 < m.length then
      fillMap off (first + 1) l (m.set (old - off - 1) first)
    else none

/-- Map one id (src/layer/simple_builder.rs:367-378). -/
def remapId (off : Nat) (m : List Nat) (id : Nat) : Option Nat :=
  if id > off then m[id - off - 1]? else some id

/-- Map a triple (src/layer/simple_builder.rs:366-379). -/
def remapTriple (nv p : Nat) (nm pm : List Nat) (t : Triple) : Option Triple := do
  let s ← remapId nv nm t.s
  let q ← remapId p pm t.p
  let o ← remapId nv nm t.o
  return ⟨s, q, o⟩

/-- Map all triples. -/
def remapAll (nv p : Nat) (nm pm : List Nat) : List Triple → Option (List Triple)
  | [] => some []
  | t :: ts => do
    let t' ← remapTriple nv p nm pm t
    let ts' ← remapAll nv p nm pm ts
    return t' :: ts'

end SimpleBuilder

/-- Adding entries to a dictionary builder (`StringDictBufBuilder::add`,
`TypedDictBufBuilder::add`, external crate; src/layer/builder.rs:45-170): an entry
that is not a successor of the previous one is a panic. -/
def dictBuild {α : Type} [LinearOrder α] (l : List α) : Option (List α) :=
  if l.Pairwise (· < ·) then some l else none

/-- Keep the elements for which a check that may panic says so. -/
def filterM' {α : Type} (f : α → Option Bool) : List α → Option (List α)
  | [] => some []
  | a :: l => do
    let b ← f a
    let r ← filterM' f l
    return if b then a :: r else r

/-- `BaseLayerFileBuilder` and `BaseLayerFileBuilderPhase2` driven with all entries and
triples, then loaded (src/layer/internal/base.rs:150-403, 52-141). -/
def buildBase [LinearOrder K] [LinearOrder V] (nodes preds : List K) (values : List V)
    (adds : List Triple) : Option (LayerData K V) := do
  let nodes ← dictBuild nodes
  let preds ← dictBuild preds
  let values ← dictBuild values
  let pos ← buildIndex false adds
  return { nodes := nodes, preds := preds, values := values, pos := pos }

/-- `ChildLayerFileBuilder` and `ChildLayerFileBuilderPhase2` driven with all entries,
additions and removals, then loaded on top of the same parent
(src/layer/internal/child.rs:237-266, 384-559, 64-197): entries known to the parent
are skipped, additions that exist in the parent and removals that do not are
dropped. -/
def buildChild [LinearOrder K] [LinearOrder V] (S : List (LayerData K V)) (nodes preds : List K)
    (values : List V) (adds rems : List Triple) : Option (LayerData K V) := do
  let nodes ← filterM' (fun k => (Stack.nodeId S k).map Option.isNone) nodes
  let nodes ← dictBuild nodes
  let preds ← filterM' (fun k => (Stack.predId S k).map Option.isNone) preds
  let preds ← dictBuild preds
  let values ← filterM' (fun v => (Stack.valueId S v).map Option.isNone) values
  let values ← dictBuild values
  let adds ← filterM' (fun t => (Stack.tripleExists S t).map (fun b => !b)) adds
  let rems ← filterM' (fun t => Stack.tripleExists S t) rems
  let pos ← buildIndex true adds
  let neg ← buildIndex true rems
  return { nodes := nodes, preds := preds, values := values,
           parentNV := Stack.nvCount S, parentP := Stack.pCount S,
           pos := pos, neg := some neg }

namespace SimpleBuilder

/-- What `commit` computes before it hands over to a file builder
(src/layer/simple_builder.rs:232-382). `nv` and `pm` are the entries of the two hash
maps in the order they are iterated over. -/
def prepare [LinearOrder K] [LinearOrder V] (b : SimpleBuilder K V) (nv : List (Obj K V × Nat))
    (pm : List (K × Nat)) :
    Option (List K × List K × List V × List Triple × List Triple) := do
  let nvOff := Stack.nvCount b.parent
  let pOff := Stack.pCount b.parent
  let as := dedupAdj (isort b.adds)
  let rs := dedupAdj (isort b.rems)
  let (as, rs) := noops nvOff pOff as rs
  let (nvUsed, pUsed) ← markAll nvOff pOff (as ++ rs)
    (List.replicate (b.nodeCount + b.valCount) false, List.replicate b.predCount false)
  let entries ← collectUsed nvOff nvUsed nv
  let preds ← collectUsed pOff pUsed pm
  let nodes := sortEntries (pickNodes entries)
  let values := sortEntries (pickValues entries)
  let preds := sortEntries preds
  let nm ← fillMap nvOff (nvOff + 1) nodes (List.replicate (b.nodeCount + b.valCount) 0)
  let nm ← fillMap nvOff (nvOff + nodes.length + 1) values nm
  let pm ← fillMap pOff (pOff + 1) preds (List.replicate b.predCount 0)
  let as ← remapAll nvOff pOff nm pm as
  let rs ← remapAll nvOff pOff nm pm rs
  return (nodes.map Prod.fst, preds.map Prod.fst, values.map Prod.fst, isort as, isort rs)

/-- `commit` (src/layer/simple_builder.rs:218-420), the two hash maps being iterated in
the given orders. -/
def commitWith [LinearOrder K] [LinearOrder V] (b : SimpleBuilder K V)
    (nv : List (Obj K V × Nat)) (pm : List (K × Nat)) : Option (LayerData K V) := do
  let (nodes, preds, values, as, rs) ← b.prepare nv pm
  match b.parent with
  | [] => buildBase nodes preds values as
  | d :: S => buildChild (d :: S) nodes preds values as rs

/-- `commit` with the maps iterated in insertion order. -/
def commit [LinearOrder K] [LinearOrder V] (b : SimpleBuilder K V) : Option (LayerData K V) :=
  b.commitWith b.nvMap b.pMap

end SimpleBuilder

end Verif
