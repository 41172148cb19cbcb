import Verif.Model.Dict
import Verif.Model.Merge

/-!
Model of `src/layer/internal/mod.rs` (`InternalLayer` and its `Layer`
implementation) and of the data types and default methods of
`src/layer/layer.rs`. A panic is the outer `none`.
-/

namespace Verif

/-- Layer names, `[u32; 5]` in the code; only equality is used here. The textual
form is modelled in `Verif/Model/Text.lean`. -/
abbrev Name := Nat

/-- `ObjectType` (src/layer/layer.rs:370-403). -/
inductive Obj (K V : Type) where
  | node (k : K)
  | value (v : V)
deriving DecidableEq, Repr

/-- `ValueTriple` (src/layer/layer.rs:203-252). -/
structure VTriple (K V : Type) where
  s : K
  p : K
  o : Obj K V
deriving DecidableEq, Repr

/-- The contents of one layer: `BaseLayer` (src/layer/internal/base.rs:24-41) and
`ChildLayer` (src/layer/internal/child.rs:24-51) without the parent pointer. For a
base layer `neg = none` and the parent counts are 0, as the accessors return
(src/layer/internal/mod.rs:109-123, 149-219). The name is not part of it. -/
structure LayerData (K V : Type) where
  nodes : List K
  preds : List K
  values : List V
  nvMap : IdMap := none
  pMap : IdMap := none
  parentNV : Nat := 0
  parentP : Nat := 0
  pos : TripleIndex
  neg : Option TripleIndex := none
deriving DecidableEq, Repr

/-- `InternalLayer` (src/layer/internal/mod.rs:24-28) with `RollupLayer`
(src/layer/internal/rollup.rs:8-13). -/
inductive InternalLayer (K V : Type) where
  | base (name : Name) (d : LayerData K V)
  | child (name : Name) (d : LayerData K V) (parent : InternalLayer K V)
  | rollup (inner : InternalLayer K V) (original : Name) (originalParent : Option Name)

variable {K V : Type}

namespace InternalLayer

/-- `name` (src/layer/internal/mod.rs:34-40). -/
def name : InternalLayer K V → Name
  | base n _ => n
  | child n _ _ => n
  | rollup _ o _ => o

/-- `parent_name` (src/layer/internal/mod.rs:42-48). -/
def parentName : InternalLayer K V → Option Name
  | base _ _ => none
  | child _ _ p => some p.name
  | rollup _ _ p => p

/-- `immediate_parent` (src/layer/internal/mod.rs:50-56). -/
def immediateParent : InternalLayer K V → Option (InternalLayer K V)
  | base _ _ => none
  | child _ _ p => some p
  | rollup i _ _ => i.immediateParent

/-- The contents reached through the accessors of a layer, all of which delegate
to the inner layer of a rollup (src/layer/internal/mod.rs:69-219). -/
def data : InternalLayer K V → LayerData K V
  | base _ d => d
  | child _ d _ => d
  | rollup i _ _ => i.data

/-- The layers visited by following `immediate_parent`, topmost first: each with the
name it reports and its contents. All loops of src/layer/internal/mod.rs run over
this sequence. -/
def levels : InternalLayer K V → List (Name × LayerData K V)
  | base n d => [(n, d)]
  | child n d p => (n, d) :: p.levels
  | rollup i o _ => (o, i.data) :: (i.levels.tail)

/-- The contents of the visited layers. -/
def stack (l : InternalLayer K V) : List (LayerData K V) := l.levels.map Prod.snd

end InternalLayer

/-! ### Queries over a stack of layers (topmost first) -/

namespace Stack

/-- `node_and_value_count` of the topmost layer (src/layer/internal/mod.rs:546-550),
0 when there is no layer (`parent_option.map_or(0, …)`). -/
def nvCount : List (LayerData K V) → Nat
  | [] => 0
  | d :: _ => d.parentNV + d.nodes.length + d.values.length

/-- `predicate_count` of the topmost layer (src/layer/internal/mod.rs:552-554). -/
def pCount : List (LayerData K V) → Nat
  | [] => 0
  | d :: _ => d.parentP + d.preds.length

section Dict
variable [DecidableEq K] [DecidableEq V]

/-- `subject_id` and `object_node_id` (src/layer/internal/mod.rs:556-572, 592-608;
the two have the same body). -/
def nodeId : List (LayerData K V) → K → Option (Option Nat)
  | [], _ => some none
  | d :: rest, k =>
    match dictId d.nodes k with
    | some i => do
      let j ← innerToOuter d.nvMap i
      return some (j + nvCount rest)
    | none => nodeId rest k

/-- `predicate_id` (src/layer/internal/mod.rs:574-590). -/
def predId : List (LayerData K V) → K → Option (Option Nat)
  | [], _ => some none
  | d :: rest, k =>
    match dictId d.preds k with
    | some i => do
      let j ← innerToOuter d.pMap i
      return some (j + pCount rest)
    | none => predId rest k

/-- `object_value_id` (src/layer/internal/mod.rs:610-627). -/
def valueId : List (LayerData K V) → V → Option (Option Nat)
  | [], _ => some none
  | d :: rest, v =>
    match dictId d.values v with
    | some i => do
      let j ← innerToOuter d.nvMap (i + d.nodes.length)
      return some (j + nvCount rest)
    | none => valueId rest v

end Dict

/-- Find the layer an id of a node or value belongs to: its contents and the id
within the layer before the id map (the common loop of
src/layer/internal/mod.rs:633-648, 697-713, 739-755). `none` is an arithmetic
underflow; the inner `none` is the empty stack. -/
def locateNV : List (LayerData K V) → Nat → Nat → Option (Option (LayerData K V × Nat))
  | [], _, _ => some none
  | [d], _, id => some (some (d, id))
  | d :: d' :: rest, parentCount, id =>
    if parentCount < d.nodes.length + d.values.length then none
    else
      let pc := parentCount - d.nodes.length - d.values.length
      if id > pc then some (some (d, id - pc)) else locateNV (d' :: rest) pc id

/-- The same loop for predicates (src/layer/internal/mod.rs:666-679). -/
def locateP : List (LayerData K V) → Nat → Nat → Option (Option (LayerData K V × Nat))
  | [], _, _ => some none
  | [d], _, id => some (some (d, id))
  | d :: d' :: rest, parentCount, id =>
    if parentCount < d.preds.length then none
    else
      let pc := parentCount - d.preds.length
      if id > pc then some (some (d, id - pc)) else locateP (d' :: rest) pc id

/-- `id_subject` (src/layer/internal/mod.rs:629-660). -/
def idSubject (S : List (LayerData K V)) (id : Nat) : Option (Option K) :=
  if id = 0 then some none
  else do
    let r ← locateNV S (nvCount S) id
    match r with
    | none => some none
    | some (d, i) => do
      let j ← outerToInner d.nvMap i
      return dictGet d.nodes j

/-- `id_predicate` (src/layer/internal/mod.rs:662-691). -/
def idPredicate (S : List (LayerData K V)) (id : Nat) : Option (Option K) :=
  if id = 0 then some none
  else do
    let r ← locateP S (pCount S) id
    match r with
    | none => some none
    | some (d, i) => do
      let j ← outerToInner d.pMap i
      return dictGet d.preds j

/-- `id_object` (src/layer/internal/mod.rs:693-733). -/
def idObject (S : List (LayerData K V)) (id : Nat) : Option (Option (Obj K V)) :=
  if id = 0 then some none
  else do
    let r ← locateNV S (nvCount S) id
    match r with
    | none => some none
    | some (d, i) => do
      let j ← outerToInner d.nvMap i
      if j > d.nodes.length then return (dictGet d.values (j - d.nodes.length)).map Obj.value
      else return (dictGet d.nodes j).map Obj.node

/-- `id_object_is_node` (src/layer/internal/mod.rs:735-775). -/
def idObjectIsNode (S : List (LayerData K V)) (id : Nat) : Option (Option Bool) :=
  if id = 0 then some none
  else do
    let r ← locateNV S (nvCount S) id
    match r with
    | none => some none
    | some (d, i) => do
      let j ← outerToInner d.nvMap i
      if j > d.nodes.length + d.values.length then return none
      else if j > d.nodes.length then return some false
      else return some true

/-- `id_object_is_value` (src/layer/layer.rs:63-65). -/
def idObjectIsValue (S : List (LayerData K V)) (id : Nat) : Option (Option Bool) := do
  let r ← idObjectIsNode S id
  return r.map (fun b => !b)

/-- `id_object_node` (src/layer/layer.rs:41-46): panics on a value. -/
def idObjectNode (S : List (LayerData K V)) (id : Nat) : Option (Option K) := do
  let r ← idObject S id
  match r with
  | none => some none
  | some (.node k) => some (some k)
  | some (.value _) => none

/-- `id_object_value` (src/layer/layer.rs:49-54): panics on a node. -/
def idObjectValue (S : List (LayerData K V)) (id : Nat) : Option (Option V) := do
  let r ← idObject S id
  match r with
  | none => some none
  | some (.value v) => some (some v)
  | some (.node _) => none

/-- `internal_triple_removal_exists` of one layer (src/layer/internal/mod.rs:273-296). -/
def removalExists (d : LayerData K V) (t : Triple) : Option Bool :=
  match d.neg with
  | none => some false
  | some x => x.contains t

/-- The loop of `triple_exists` (src/layer/internal/mod.rs:830-848). -/
def tripleExistsLoop : List (LayerData K V) → Triple → Option Bool
  | [], _ => some false
  | d :: rest, t => do
    let a ← d.pos.contains t
    if a then return true
    else do
      let r ← removalExists d t
      if r then return false else tripleExistsLoop rest t

/-- `triple_exists` (src/layer/internal/mod.rs:825-849). -/
def tripleExists (S : List (LayerData K V)) (t : Triple) : Option Bool :=
  if t.s = 0 ∨ t.p = 0 ∨ t.o = 0 then some false else tripleExistsLoop S t

/-- A bound on the number of additions, used to bound the merging loops. -/
def posFuel (S : List (LayerData K V)) : Nat :=
  (S.map (fun d => d.pos.spo.rightCount)).sum + 1

/-- `InternalTripleSubjectIterator::from_layer`
(src/layer/internal/subject_iterator.rs:225-246). -/
def subjMerged (S : List (LayerData K V)) : Merged (Option SubjIter) :=
  { positives := S.map (fun d => some d.pos.iter),
    negatives := S.map (fun d => d.neg.map TripleIndex.iter) }

/-- Seek every iterator of a vector
(src/layer/internal/subject_iterator.rs:248-270, object_iterator.rs:213-223). -/
def seekAll {σ : Type} (f : σ → Option σ) : List (Option σ) → Option (List (Option σ))
  | [] => some []
  | none :: l => do
    let l' ← seekAll f l
    return none :: l'
  | some it :: l => do
    let it' ← f it
    let l' ← seekAll f l
    return some it' :: l'

/-- Seek in both vectors. -/
def seekMerged {σ : Type} (f : σ → Option σ) (m : Merged (Option σ)) :
    Option (Merged (Option σ)) := do
  let ps ← seekAll f m.positives
  let ns ← seekAll f m.negatives
  return ⟨ps, ns⟩

/-- `triples` (src/layer/internal/mod.rs:851-853). -/
def triples (S : List (LayerData K V)) : Option (List Triple) :=
  (subjMerged S).collect subjOps id (posFuel S)

/-- `triples_s` (src/layer/internal/mod.rs:855-861). -/
def triplesS (S : List (LayerData K V)) (s : Nat) : Option (List Triple) := do
  let m ← seekMerged (·.seekSubject s) (subjMerged S)
  let l ← m.collect subjOps id (posFuel S)
  return l.takeWhile (fun t => t.s == s)

/-- `triples_sp` (src/layer/internal/mod.rs:863-873). -/
def triplesSP (S : List (LayerData K V)) (s p : Nat) : Option (List Triple) := do
  let m ← seekMerged (·.seekSubjectPredicate s p) (subjMerged S)
  let l ← m.collect subjOps id (posFuel S)
  return l.takeWhile (fun t => t.s == s && t.p == p)

/-- `InternalTriplePredicateIterator::from_layer`
(src/layer/internal/predicate_iterator.rs:123-145). -/
def predMerged (S : List (LayerData K V)) (p : Nat) : Merged (Option PredIter) :=
  { positives := S.map (fun d => d.pos.predIter p),
    negatives := S.map (fun d => d.neg.bind (fun x => x.predIter p)) }

/-- `triples_p` (src/layer/internal/mod.rs:875-877). -/
def triplesP (S : List (LayerData K V)) (p : Nat) : Option (List Triple) :=
  (predMerged S p).collect predOps id (posFuel S)

/-- `InternalTripleObjectIterator::from_layer`
(src/layer/internal/object_iterator.rs:189-211). -/
def objMerged (S : List (LayerData K V)) : Merged (Option ObjIter) :=
  { positives := S.map (fun d => some d.pos.objIter),
    negatives := S.map (fun d => d.neg.map TripleIndex.objIter) }

/-- `triples_o` (src/layer/internal/mod.rs:879-885). -/
def triplesO (S : List (LayerData K V)) (o : Nat) : Option (List Triple) := do
  let m ← seekMerged (·.seekObject o) (objMerged S)
  let l ← m.collect objOps Triple.rot (posFuel S)
  return l.takeWhile (fun t => t.o == o)

/-- The loop collecting the removed objects of a pair
(src/layer/internal/mod.rs:916-922). -/
def excludeLoop (spo : AdjList) : Nat → Nat → List Nat → Option (List Nat)
  | 0, _, _ => none
  | fuel + 1, pos, exclude => do
    let num ← spo.numAt pos
    let bit ← spo.bitAt pos
    if bit then return num :: exclude else excludeLoop spo fuel (pos + 1) (num :: exclude)

/-- The loop looking for an object that is not excluded
(src/layer/internal/mod.rs:935-949). -/
def includeLoop (spo : AdjList) (exclude : List Nat) : Nat → Nat → Option (Option Nat)
  | 0, _ => none
  | fuel + 1, pos => do
    let num ← spo.numAt pos
    if num ∉ exclude then return some num
    else do
      let bit ← spo.bitAt pos
      if bit then return none else includeLoop spo exclude fuel (pos + 1)

/-- The objects of the removals of one layer for a pair, added to the excluded ones
(src/layer/internal/mod.rs:908-924). -/
def excludeStep (d : LayerData K V) (s p : Nat) (exclude : List Nat) : Option (List Nat) :=
  match d.neg with
  | none => some exclude
  | some x => do
    let r ← spoPosition x.subjects x.sp x.spo s p
    match r with
    | none => return exclude
    | some pos => excludeLoop x.spo (x.spo.rightCount + 1) pos exclude

/-- The first object of the additions of one layer for a pair that is not excluded
(src/layer/internal/mod.rs:926-950). -/
def includeStep (d : LayerData K V) (s p : Nat) (exclude : List Nat) : Option (Option Nat) := do
  let r ← spoPosition d.pos.subjects d.pos.sp d.pos.spo s p
  match r with
  | none => return none
  | some pos => includeLoop d.pos.spo exclude (d.pos.spo.rightCount + 1) pos

/-- The loop of `single_triple_sp` over a layer and its parent
(src/layer/internal/mod.rs:906-956). -/
def singleLoop (s p : Nat) : List (LayerData K V) → List Nat → Option (Option Triple)
  | [], _ => some none
  | [_], _ => some none
  | d :: d' :: rest, exclude => do
    let exclude ← excludeStep d s p exclude
    let r ← includeStep d' s p exclude
    match r with
    | some o => return some ⟨s, p, o⟩
    | none => singleLoop s p (d' :: rest) exclude

/-- `single_triple_sp` (src/layer/internal/mod.rs:887-957). -/
def singleTripleSP (S : List (LayerData K V)) (s p : Nat) : Option (Option Triple) :=
  match S with
  | [] => some none
  | d :: _ => do
    let r ← spoPosition d.pos.subjects d.pos.sp d.pos.spo s p
    match r with
    | some pos => do
      let o ← d.pos.spo.numAt pos
      return some ⟨s, p, o⟩
    | none => singleLoop s p S []

/-- `internal_triple_layer_removal_count` (src/layer/internal/mod.rs:478-485). -/
def removalCount (d : LayerData K V) : Option Nat :=
  match d.neg with
  | none => some 0
  | some x => x.count

/-- `triple_addition_count` (src/layer/internal/mod.rs:781-792). -/
def tripleAdditionCount : List (LayerData K V) → Option Nat
  | [] => some 0
  | d :: rest => do
    let n ← d.pos.count
    let m ← tripleAdditionCount rest
    return n + m

/-- `triple_removal_count` (src/layer/internal/mod.rs:794-805). -/
def tripleRemovalCount : List (LayerData K V) → Option Nat
  | [] => some 0
  | d :: rest => do
    let n ← removalCount d
    let m ← tripleRemovalCount rest
    return n + m

/-- `triple_count` (src/layer/layer.rs:161-163); a negative difference panics. -/
def tripleCount (S : List (LayerData K V)) : Option Nat := do
  let a ← tripleAdditionCount S
  let r ← tripleRemovalCount S
  if a < r then none else return a - r

/-- `all_counts` (src/layer/internal/mod.rs:807-823): nodes, predicates, values. -/
def allCounts : List (LayerData K V) → Nat × Nat × Nat
  | [] => (0, 0, 0)
  | d :: rest =>
    let (n, p, v) := allCounts rest
    (d.nodes.length + n, d.preds.length + p, d.values.length + v)

section Conversions
variable [DecidableEq K] [DecidableEq V]

/-- The id of an object (src/layer/layer.rs:100-103). -/
def objectId (S : List (LayerData K V)) : Obj K V → Option (Option Nat)
  | .node k => nodeId S k
  | .value v => valueId S v

/-- `value_triple_to_id` (src/layer/layer.rs:97-111). -/
def valueTripleToId (S : List (LayerData K V)) (t : VTriple K V) : Option (Option Triple) := do
  let s ← nodeId S t.s
  match s with
  | none => return none
  | some s => do
    let p ← predId S t.p
    match p with
    | none => return none
    | some p => do
      let o ← objectId S t.o
      return o.map (fun o => ⟨s, p, o⟩)

/-- `value_triple_exists` (src/layer/layer.rs:83-87). -/
def valueTripleExists (S : List (LayerData K V)) (t : VTriple K V) : Option Bool := do
  let r ← valueTripleToId S t
  match r with
  | none => return false
  | some t => tripleExists S t

/-- `id_triple_to_string` (src/layer/layer.rs:142-152). -/
def idTripleToString (S : List (LayerData K V)) (t : Triple) : Option (Option (VTriple K V)) := do
  let s ← idSubject S t.s
  match s with
  | none => return none
  | some s => do
    let p ← idPredicate S t.p
    match p with
    | none => return none
    | some p => do
      let o ← idObject S t.o
      return o.map (fun o => ⟨s, p, o⟩)

end Conversions

end Stack

end Verif
