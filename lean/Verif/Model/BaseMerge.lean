import Verif.Model.SimpleBuilder
import Verif.Model.TripleStream

/-!
Model of `src/layer/internal/base_merge.rs`. A panic is `none`. The files are written in a
temporary directory first and copied afterwards (src/layer/internal/base_merge.rs:178-183,
289-291, src/storage/copy.rs:22-54); here they appear at once.
-/

namespace Verif

namespace BaseMerge

variable {K V : Type}

/-- The dictionary written by `dedup_merge_string_dictionaries_stream` and
`dedup_merge_typed_dictionary_streams` (external crate, used at
src/layer/internal/base_merge.rs:49, 74): the entries of all inputs in order, each once. -/
def dictOf {α : Type} [LinearOrder α] (ds : List (List α)) : List α := dedupAdj (isort ds.flatten)

/-- The map for one input returned by the same functions: for each entry of the input its
position in the output. -/
def mapOf {α : Type} [DecidableEq α] (out d : List α) : List Nat := d.map (fun a => out.idxOf a)

/-- `map[id - 1]`; an index out of range, also the one below zero, is a panic. -/
def slot (m : List Nat) (id : Nat) : Option Nat := if id = 0 then none else m[id - 1]?

/-- `map_triple` (src/layer/internal/base_merge.rs:79-96). -/
def mapTriple (nm pm vm : List Nat) (numNodes : Nat) (t : Triple) : Option Triple := do
  let s ← slot nm t.s
  let p ← slot pm t.p
  if t.o = 0 then none
  else if t.o - 1 < nm.length then do
    let o ← slot nm t.o
    return ⟨s + 1, p + 1, o + 1⟩
  else do
    let o ← vm[t.o - 1 - nm.length]?
    return ⟨s + 1, p + 1, o + numNodes + 1⟩

/-- Map every triple of a stream (src/layer/internal/base_merge.rs:232-243). -/
def mapAll (f : Triple → Option Triple) : List Triple → Option (List Triple)
  | [] => some []
  | t :: ts => do
    let t' ← f t
    let ts' ← mapAll f ts
    return t' :: ts'

/-- The mapped triples of one input (src/layer/internal/base_merge.rs:221-243): its id maps
are not looked at. -/
def inputStream [DecidableEq K] [DecidableEq V] (nodes preds : List K) (values : List V)
    (d : LayerData K V) : Option (List Triple) := do
  let ts ← baseTripleStream d.pos.sp d.pos.spo
  mapAll (mapTriple (mapOf nodes d.nodes) (mapOf preds d.preds) (mapOf values d.values)
    nodes.length) ts

/-- The streams of all inputs (src/layer/internal/base_merge.rs:221-246). -/
def inputStreams [DecidableEq K] [DecidableEq V] (nodes preds : List K) (values : List V) :
    List (LayerData K V) → Option (List (List Triple))
  | [] => some []
  | d :: ds => do
    let s ← inputStream nodes preds values d
    let r ← inputStreams nodes preds values ds
    return s :: r

/-- The smallest of the first elements of some streams, and the streams without it. -/
def popMin {α : Type} [LinearOrder α] : List (List α) → Option (α × List (List α))
  | [] => none
  | [] :: ss => (popMin ss).map (fun q => (q.1, [] :: q.2))
  | (a :: s) :: ss =>
    match popMin ss with
    | none => some (a, s :: ss)
    | some (b, r) => if b < a then some (b, (a :: s) :: r) else some (a, s :: ss)

/-- `heap_sorted_stream` (external crate, used at src/layer/internal/base_merge.rs:248): the
smallest of the first elements is yielded until all streams are at their end. -/
def heapMerge {α : Type} [LinearOrder α] : Nat → List (List α) → List α
  | 0, _ => []
  | n + 1, ss =>
    match popMin ss with
    | none => []
    | some (a, r) => a :: heapMerge n r

/-- The loop over the merged triples (src/layer/internal/base_merge.rs:259-272): a triple
equal to the last one is skipped. -/
def skipRepeats : Option Triple → List Triple → List Triple
  | _, [] => []
  | last, t :: ts => if some t = last then skipRepeats last ts else t :: skipRepeats (some t) ts

/-- `merge_base_layers` (src/layer/internal/base_merge.rs:168-294). `buildBase` covers the
writing of the dictionaries, of the triples (lines 250-274) and of the indexes (lines
279-287). -/
def mergeBases [LinearOrder K] [LinearOrder V] (ds : List (LayerData K V)) :
    Option (LayerData K V) := do
  let nodes := dictOf (ds.map (·.nodes))
  let preds := dictOf (ds.map (·.preds))
  let values := dictOf (ds.map (·.values))
  let ss ← inputStreams nodes preds values ds
  buildBase nodes preds values (skipRepeats none (heapMerge ss.flatten.length ss))

/-- The layers that `merge_base_layers` treats rightly: without id maps, and with no value as
the subject of a triple; see DESIGN.md, section 4. -/
def Clean (d : LayerData K V) : Prop :=
  d.nvMap = none ∧ d.pMap = none ∧ ∀ ts, d.pos.triples = some ts → ∀ t ∈ ts, t.s ≤ d.nodes.length

end BaseMerge

end Verif
