import Verif.Model.TripleFile

/-!
Model of the per-layer queries and iterators:
`src/layer/internal/mod.rs` (sp_o_position, layer_triple_exists),
`subject_iterator.rs`, `predicate_iterator.rs`, `object_iterator.rs`.
A panic is the outer `none`.
-/

namespace Verif

/-- Run an iterator (`next` returning the item and the new state) to exhaustion.
The first argument bounds the number of items; running out is reported as a
failure, so that theorems show it never happens. -/
def collectN {σ α : Type _} (next : σ → Option (Option α × σ)) : Nat → σ → Option (List α)
  | 0, _ => none
  | n + 1, st => do
    let (r, st') ← next st
    match r with
    | none => some []
    | some a => do
      let rest ← collectN next n st'
      return a :: rest

/-! ### Membership -/

/-- The scan over the predicates of a subject in `sp_o_position`
(src/layer/internal/mod.rs:1004-1016). -/
def spScan (sp : AdjList) (predicate : Nat) : Nat → Nat → Option (Option Nat)
  | 0, _ => none
  | fuel + 1, pos => do
    let bit ← sp.bitAt pos
    let num ← sp.numAt pos
    if num = predicate then some (some pos)
    else if bit then some none
    else spScan sp predicate fuel (pos + 1)

/-- The row of a subject, if it has one (src/layer/internal/mod.rs:988-1000). -/
def subjectRow (subjects : Option (List Nat)) (sp : AdjList) (s : Nat) : Option Nat :=
  match subjects with
  | none => if s > sp.leftCount then none else some (s - 1)
  | some l => indexOf l s

/-- `sp_o_position` (src/layer/internal/mod.rs:978-1019). -/
def spoPosition (subjects : Option (List Nat)) (sp spo : AdjList) (s p : Nat) :
    Option (Option Nat) :=
  if s = 0 ∨ p = 0 then some none
  else
    match subjectRow subjects sp s with
    | none => some none
    | some sPos => do
      let start ← sp.offsetFor (sPos + 1)
      let r ← spScan sp p (sp.rightCount + 1) start
      match r with
      | none => some none
      | some spPos => do
        let off ← spo.offsetFor (spPos + 1)
        return some off

/-- The scan over the objects of a pair in `layer_triple_exists`
(src/layer/internal/mod.rs:1044-1057). -/
def oScan (spo : AdjList) (object : Nat) : Nat → Nat → Option Bool
  | 0, _ => none
  | fuel + 1, pos => do
    let bit ← spo.bitAt pos
    let num ← spo.numAt pos
    if num = object then some true
    else if bit then some false
    else oScan spo object fuel (pos + 1)

/-- `layer_triple_exists` (src/layer/internal/mod.rs:1021-1060). -/
def layerTripleExists (subjects : Option (List Nat)) (sp spo : AdjList) (t : Triple) :
    Option Bool :=
  if t.o = 0 then some false
  else do
    let r ← spoPosition subjects sp spo t.s t.p
    match r with
    | none => some false
    | some pos => oScan spo t.o (spo.rightCount + 1) pos

/-! ### Subject iterator -/

/-- `InternalLayerTripleSubjectIterator` (src/layer/internal/subject_iterator.rs:8-16). -/
structure SubjIter where
  subjects : Option (List Nat)
  sp : AdjList
  spo : AdjList
  sPos : Nat := 0
  spPos : Nat := 0
  spoPos : Nat := 0
  peeked : Option Triple := none
deriving DecidableEq, Repr

namespace SubjIter

/-- `new` (src/layer/internal/subject_iterator.rs:19-33). -/
def new (subjects : Option (List Nat)) (sp spo : AdjList) : SubjIter :=
  { subjects := subjects, sp := sp, spo := spo }

/-- The position a subject starts at: exact for dense, lower bound for sparse
(src/layer/internal/subject_iterator.rs:51-54, 87-90). -/
def subjectPosition (it : SubjIter) (s : Nat) : Nat :=
  match it.subjects with
  | none => s - 1
  | some l => nearestIndexOf l s

/-- `seek_subject_ref` (src/layer/internal/subject_iterator.rs:41-63). -/
def seekSubject (it : SubjIter) (s : Nat) : Option SubjIter :=
  if s = 0 then some { it with peeked := none, sPos := 0, spPos := 0, spoPos := 0 }
  else
    let sPos := it.subjectPosition s
    if sPos ≥ it.sp.leftCount then
      some { it with peeked := none, sPos := sPos, spPos := it.sp.rightCount,
                     spoPos := it.spo.rightCount }
    else do
      let spPos ← it.sp.offsetFor (sPos + 1)
      let spoPos ← it.spo.offsetFor (spPos + 1)
      return { it with peeked := none, sPos := sPos, spPos := spPos, spoPos := spoPos }

/-- The `while` loop of `seek_subject_predicate_ref`
(src/layer/internal/subject_iterator.rs:97-106); returns the position and whether
the end of the subject was passed. -/
def seekSpLoop (sp : AdjList) (predicate : Nat) : Nat → Nat → Option (Nat × Bool)
  | 0, _ => none
  | fuel + 1, pos => do
    let num ← sp.numAt pos
    if num < predicate then do
      let bit ← sp.bitAt pos
      if bit then some (pos + 1, true) else seekSpLoop sp predicate fuel (pos + 1)
    else some (pos, false)

/-- `seek_subject_predicate_ref` (src/layer/internal/subject_iterator.rs:71-110). -/
def seekSubjectPredicate (it : SubjIter) (s p : Nat) : Option SubjIter :=
  if p = 0 then it.seekSubject s
  else if s = 0 then some { it with peeked := none, sPos := 0, spPos := 0, spoPos := 0 }
  else
    let sPos := it.subjectPosition s
    if sPos ≥ it.sp.leftCount then
      some { it with peeked := none, sPos := sPos, spPos := it.sp.rightCount,
                     spoPos := it.spo.rightCount }
    else do
      let start ← it.sp.offsetFor (sPos + 1)
      let (spPos, passed) ← seekSpLoop it.sp p (it.sp.rightCount + 1) start
      let spoPos ← it.spo.offsetFor (spPos + 1)
      return { it with peeked := none, sPos := if passed then sPos + 1 else sPos,
                       spPos := spPos, spoPos := spoPos }

/-- `seek_s_p_pos` (src/layer/internal/subject_iterator.rs:112-118). -/
def seekSpPos (it : SubjIter) (pos : Nat) : Option SubjIter := do
  let l ← it.sp.leftAt pos
  let spoPos ← it.spo.offsetFor (pos + 1)
  return { it with peeked := none, spPos := pos, sPos := l - 1, spoPos := spoPos }

/-- The loop of `next` (src/layer/internal/subject_iterator.rs:137-175). -/
def nextLoop : Nat → SubjIter → Option (Option Triple × SubjIter)
  | 0, _ => none
  | fuel + 1, it =>
    if it.spoPos ≥ it.spo.rightCount then some (none, it)
    else do
      let sPos := it.sPos
      let spBit ← it.sp.bitAt it.spPos
      let predicate ← it.sp.numAt it.spPos
      if predicate = 0 then
        nextLoop fuel { it with sPos := if spBit then it.sPos + 1 else it.sPos,
                                spPos := it.spPos + 1, spoPos := it.spoPos + 1 }
      else do
        let spoBit ← it.spo.bitAt it.spoPos
        let object ← it.spo.numAt it.spoPos
        let it' : SubjIter :=
          { it with spPos := if spoBit then it.spPos + 1 else it.spPos,
                    sPos := if spoBit && spBit then it.sPos + 1 else it.sPos,
                    spoPos := it.spoPos + 1 }
        if object = 0 then nextLoop fuel it'
        else
          match it.subjects with
          | some l => do
            let s ← l[sPos]?
            return (some ⟨s, predicate, object⟩, it')
          | none => some (some ⟨sPos + 1, predicate, object⟩, it')

/-- `next` (src/layer/internal/subject_iterator.rs:130-176). -/
def next (it : SubjIter) : Option (Option Triple × SubjIter) :=
  match it.peeked with
  | some t => some (some t, { it with peeked := none })
  | none => nextLoop (it.spo.rightCount + 1) it

/-- `peek` (src/layer/internal/subject_iterator.rs:120-124). -/
def peek (it : SubjIter) : Option (Option Triple × SubjIter) := do
  let (r, it') ← it.next
  return (r, { it' with peeked := r })

/-- All remaining items. -/
def collect (it : SubjIter) : Option (List Triple) :=
  collectN next (it.spo.rightCount + 2) it

end SubjIter

/-! ### Predicate iterator -/

/-- `InternalLayerTriplePredicateIterator`
(src/layer/internal/predicate_iterator.rs:6-13). The wavelet lookup is the list of
positions it denotes. -/
structure PredIter where
  lookup : List Nat
  subj : SubjIter
  predPos : Nat := 0
  spBoundary : Bool := true
  peeked : Option Triple := none
deriving DecidableEq, Repr

namespace PredIter

/-- `new` (src/layer/internal/predicate_iterator.rs:16-37). -/
def new (lookup : List Nat) (subjects : Option (List Nat)) (sp spo : AdjList) : PredIter :=
  { lookup := lookup, subj := SubjIter.new subjects sp spo }

/-- `next_pos` (src/layer/internal/predicate_iterator.rs:39-52). -/
def nextPos (it : PredIter) : Option (Bool × PredIter) :=
  if it.predPos ≥ it.lookup.length then some (false, it)
  else do
    let pos ← it.lookup[it.predPos]?
    let subj ← it.subj.seekSpPos pos
    return (true, { it with subj := subj, predPos := it.predPos + 1 })

/-- The part of `next` after moving to a position
(src/layer/internal/predicate_iterator.rs:79-94). -/
def nextItem (it : PredIter) : Option (Option Triple × PredIter) := do
  let (result, subj) ← it.subj.next
  let (nxt, subj) ← subj.peek
  let boundary := nxt.isNone || (nxt.map (fun t => (t.s, t.p)) != result.map (fun t => (t.s, t.p)))
  return (result, { it with subj := subj, spBoundary := boundary })

/-- `next` (src/layer/internal/predicate_iterator.rs:64-95). -/
def next (it : PredIter) : Option (Option Triple × PredIter) :=
  match it.peeked with
  | some t => some (some t, { it with peeked := none })
  | none =>
    if it.spBoundary then do
      let (ok, it') ← it.nextPos
      if ok then it'.nextItem else some (none, it')
    else it.nextItem

/-- `peek` (src/layer/internal/predicate_iterator.rs:54-58). -/
def peek (it : PredIter) : Option (Option Triple × PredIter) := do
  let (r, it') ← it.next
  return (r, { it' with peeked := r })

/-- All remaining items. -/
def collect (it : PredIter) : Option (List Triple) :=
  collectN next (it.subj.spo.rightCount + 2) it

end PredIter

/-! ### Object iterator -/

/-- `InternalLayerTripleObjectIterator`
(src/layer/internal/object_iterator.rs:6-17). -/
structure ObjIter where
  subjects : Option (List Nat)
  objects : Option (List Nat)
  ops : AdjList
  sp : AdjList
  stopAtBoundary : Bool
  oPos : Nat := 0
  opsPos : Nat := 0
  peeked : Option Triple := none
  hitBoundary : Bool := false
deriving DecidableEq, Repr

namespace ObjIter

/-- `new` (src/layer/internal/object_iterator.rs:20-38). -/
def new (subjects objects : Option (List Nat)) (ops sp : AdjList) (stop : Bool) : ObjIter :=
  { subjects := subjects, objects := objects, ops := ops, sp := sp, stopAtBoundary := stop }

/-- The position an object starts at: exact for dense, lower bound for sparse
(src/layer/internal/object_iterator.rs:57-60). -/
def objPos (objects : Option (List Nat)) (o : Nat) : Nat :=
  match objects with
  | none => o - 1
  | some l => nearestIndexOf l o

/-- `seek_object_ref` (src/layer/internal/object_iterator.rs:46-67). -/
def seekObject (it : ObjIter) (o : Nat) : Option ObjIter :=
  if o = 0 then some { it with peeked := none, hitBoundary := false, oPos := 0, opsPos := 0 }
  else
    let oPos := objPos it.objects o
    if oPos ≥ it.ops.leftCount then
      some { it with peeked := none, hitBoundary := false, oPos := oPos,
                     opsPos := it.ops.rightCount }
    else do
      let opsPos ← it.ops.offsetFor (oPos + 1)
      return { it with peeked := none, hitBoundary := false, oPos := oPos, opsPos := opsPos }

/-- The subject a row stands for (src/layer/internal/object_iterator.rs:128-131). -/
def unmapSubject (subjects : Option (List Nat)) (mapped : Nat) : Option Nat :=
  match subjects with
  | some l => l[mapped - 1]?
  | none => some mapped

/-- The object at a position (src/layer/internal/object_iterator.rs:133-136). -/
def unmapObject (objects : Option (List Nat)) (oPos : Nat) : Option Nat :=
  match objects with
  | some l => l[oPos]?
  | none => some (oPos + 1)

/-- The loop of `next` (src/layer/internal/object_iterator.rs:101-140). -/
def nextLoop : Nat → ObjIter → Option (Option Triple × ObjIter)
  | 0, _ => none
  | fuel + 1, it =>
    if it.stopAtBoundary && it.hitBoundary then some (none, it)
    else if it.opsPos ≥ it.ops.rightCount then some (none, it)
    else do
      let oPos := it.oPos
      let bit ← it.ops.bitAt it.opsPos
      let spNum ← it.ops.numAt it.opsPos
      let it' : ObjIter :=
        { it with oPos := if bit then it.oPos + 1 else it.oPos,
                  hitBoundary := if bit && it.stopAtBoundary then true else it.hitBoundary,
                  opsPos := it.opsPos + 1 }
      if spNum = 0 then nextLoop fuel it'
      else do
        let (mapped, predicate) ← it.sp.pairAt (spNum - 1)
        let subject ← unmapSubject it.subjects mapped
        let object ← unmapObject it.objects oPos
        return (some ⟨subject, predicate, object⟩, it')

/-- `next` (src/layer/internal/object_iterator.rs:93-141). -/
def next (it : ObjIter) : Option (Option Triple × ObjIter) :=
  match it.peeked with
  | some t => some (some t, { it with peeked := none })
  | none => nextLoop (it.ops.rightCount + 1) it

/-- `peek` (src/layer/internal/object_iterator.rs:69-73). -/
def peek (it : ObjIter) : Option (Option Triple × ObjIter) := do
  let (r, it') ← it.next
  return (r, { it' with peeked := r })

/-- All remaining items. -/
def collect (it : ObjIter) : Option (List Triple) :=
  collectN next (it.ops.rightCount + 2) it

end ObjIter

/-! ### Queries on one side of a layer -/

namespace TripleIndex

/-- `internal_triple_addition_exists` / `internal_triple_removal_exists` on one side
(src/layer/internal/mod.rs:257-296) and `file_triple_exists`
(src/storage/layer.rs:2530-2556). -/
def contains (x : TripleIndex) (t : Triple) : Option Bool :=
  layerTripleExists x.subjects x.sp x.spo t

/-- `internal_triple_additions` / `internal_triple_removals`
(src/layer/internal/mod.rs:298-323), `file_triple_iterator`
(src/storage/layer.rs:2558-2576). -/
def iter (x : TripleIndex) : SubjIter := SubjIter.new x.subjects x.sp x.spo

/-- `internal_triple_additions_p` / `internal_triple_removals_p`
(src/layer/internal/mod.rs:371-410), `file_triple_iterator_by_predicate`
(src/storage/layer.rs:2578-2605). -/
def predIter (x : TripleIndex) (p : Nat) : Option PredIter :=
  (waveletLookup x.wavelet p).map (fun l => PredIter.new l x.subjects x.sp x.spo)

/-- `internal_triple_additions_by_object` / `internal_triple_removals_by_object`
(src/layer/internal/mod.rs:423-431, 444-467). -/
def objIter (x : TripleIndex) : ObjIter := ObjIter.new x.subjects x.objects x.ops x.sp false

/-- All triples of one side. -/
def triples (x : TripleIndex) : Option (List Triple) := x.iter.collect

/-- `internal_triple_additions_s` / `_removals_s` (src/layer/internal/mod.rs:325-345). -/
def triplesS (x : TripleIndex) (s : Nat) : Option (List Triple) := do
  let it ← x.iter.seekSubject s
  let l ← it.collect
  return l.takeWhile (fun t => t.s == s)

/-- `internal_triple_additions_sp` / `_removals_sp`
(src/layer/internal/mod.rs:347-369). -/
def triplesSP (x : TripleIndex) (s p : Nat) : Option (List Triple) := do
  let it ← x.iter.seekSubjectPredicate s p
  let l ← it.collect
  return l.takeWhile (fun t => t.p == p && t.s == s)

/-- `internal_triple_additions_p` / `_removals_p` run to the end
(src/layer/internal/mod.rs:371-410). -/
def triplesP (x : TripleIndex) (p : Nat) : Option (List Triple) :=
  match x.predIter p with
  | none => some []
  | some it => it.collect

/-- `internal_triple_additions_o` / `_removals_o` of a loaded layer
(src/layer/internal/mod.rs:412-442): seek, then stop at the first boundary. -/
def triplesO (x : TripleIndex) (o : Nat) : Option (List Triple) := do
  let it ← x.objIter.seekObject o
  ({ it with stopAtBoundary := true } : ObjIter).collect

/-- `triple_additions_o` / `triple_removals_o` of a stored layer
(src/storage/layer.rs:2427-2470 with 2607-2632): seek with the boundary flag, then
keep only the asked object. -/
def storedTriplesO (x : TripleIndex) (o : Nat) : Option (List Triple) := do
  let it ← (ObjIter.new x.subjects x.objects x.ops x.sp true).seekObject o
  let l ← it.collect
  return l.takeWhile (fun t => t.o == o)

/-- `internal_triple_layer_addition_count` / `_removal_count`
(src/layer/internal/mod.rs:469-485) and `file_triple_layer_count`
(src/storage/layer.rs:2634-2649). The subtraction of a larger number would panic. -/
def count (x : TripleIndex) : Option Nat :=
  let stubs := ((waveletLookup x.wavelet 0).map List.length).getD 0
  if stubs ≤ x.spo.rightCount then some (x.spo.rightCount - stubs) else none

end TripleIndex

end Verif
