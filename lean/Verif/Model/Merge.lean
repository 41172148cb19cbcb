import Verif.Model.LayerIter

/-!
Model of the merged iterators over a stack of layers:
`InternalTripleSubjectIterator`, `InternalTriplePredicateIterator`,
`InternalTripleObjectIterator` and `InternalTripleStackIterator`
(src/layer/internal/{subject,predicate,object}_iterator.rs). The three merging
iterators have the same code up to the iterator type and the comparison key, so
they share one definition here. A panic is the outer `none`.
-/

namespace Verif

/-- One step of an iterator type: `next` and `peek`. -/
structure IterOps (σ : Type) where
  next : σ → Option (Option Triple × σ)
  peek : σ → Option (Option Triple × σ)

/-- The `Opt…` wrappers (src/layer/internal/subject_iterator.rs:179-216,
predicate_iterator.rs:98-116, object_iterator.rs:144-181): an absent iterator is
an empty one. -/
def IterOps.opt {σ : Type} (I : IterOps σ) : IterOps (Option σ) where
  next
    | none => some (none, none)
    | some it => do
      let (r, it') ← I.next it
      return (r, some it')
  peek
    | none => some (none, none)
    | some it => do
      let (r, it') ← I.peek it
      return (r, some it')

/-- The subject iterator behind its `Opt` wrapper. -/
def subjOps : IterOps (Option SubjIter) := IterOps.opt ⟨SubjIter.next, SubjIter.peek⟩

/-- The predicate iterator behind its `Opt` wrapper. -/
def predOps : IterOps (Option PredIter) := IterOps.opt ⟨PredIter.next, PredIter.peek⟩

/-- The object iterator behind its `Opt` wrapper. -/
def objOps : IterOps (Option ObjIter) := IterOps.opt ⟨ObjIter.next, ObjIter.peek⟩

/-- Peek at every iterator of a vector (the `iter_mut().map(|p| p.peek())` part of
src/layer/internal/subject_iterator.rs:280-284). -/
def peekAll {σ : Type} (I : IterOps σ) : List σ → Option (List (Option Triple) × List σ)
  | [] => some ([], [])
  | it :: rest => do
    let (r, it') ← I.peek it
    let (rs, rest') ← peekAll I rest
    return (r :: rs, it' :: rest')

/-- `enumerate().filter(is_some).min_by_key(key)`
(src/layer/internal/subject_iterator.rs:284-287, object_iterator.rs:232-242):
`min_by_key` returns the first of several minimal elements. -/
def minIndex (key : Triple → Triple) : List (Option Triple) → Option (Nat × Triple)
  | [] => none
  | none :: l => (minIndex key l).map (fun q => (q.1 + 1, q.2))
  | some t :: l =>
    match minIndex key l with
    | none => some (0, t)
    | some (i, u) => if key t ≤ key u then some (0, t) else some (i + 1, u)

/-- `next` on the iterator with a given index. -/
def nextAt {σ : Type} (I : IterOps σ) : Nat → List σ → Option (Option Triple × List σ)
  | _, [] => none
  | 0, it :: rest => do
    let (r, it') ← I.next it
    return (r, it' :: rest)
  | i + 1, it :: rest => do
    let (r, rest') ← nextAt I i rest
    return (r, it :: rest')

/-- The loop over `negatives[0..lowest_index]`
(src/layer/internal/subject_iterator.rs:296-301): whether a removal of `lowest` was
found (and consumed). -/
def checkNegatives {σ : Type} (I : IterOps σ) (lowest : Triple) :
    Nat → List σ → Option (Bool × List σ)
  | 0, ns => some (false, ns)
  | _ + 1, [] => none
  | k + 1, it :: rest => do
    let (r, it') ← I.peek it
    if r = some lowest then do
      let (r', it'') ← I.next it'
      match r' with
      | none => none
      | some _ => some (true, it'' :: rest)
    else do
      let (found, rest') ← checkNegatives I lowest k rest
      return (found, it' :: rest')

/-- State of a merging iterator: `positives` and `negatives`, topmost layer first
(src/layer/internal/subject_iterator.rs:219-222). -/
structure Merged (σ : Type) where
  positives : List σ
  negatives : List σ

/-- `InternalTriple{Subject,Predicate,Object}Iterator::next`
(src/layer/internal/subject_iterator.rs:276-307, predicate_iterator.rs:149-180,
object_iterator.rs:226-262). The first argument bounds the `'outer` loop. -/
def Merged.next {σ : Type} (I : IterOps σ) (key : Triple → Triple) :
    Nat → Merged σ → Option (Option Triple × Merged σ)
  | 0, _ => none
  | fuel + 1, m => do
    let (heads, ps) ← peekAll I m.positives
    match minIndex key heads with
    | none => some (none, { m with positives := ps })
    | some (i, _) => do
      let (r, ps') ← nextAt I i ps
      match r with
      | none => none
      | some lowest => do
        let (found, ns') ← checkNegatives I lowest i m.negatives
        if found then Merged.next I key fuel ⟨ps', ns'⟩
        else some (some lowest, ⟨ps', ns'⟩)

/-- All remaining items of a merging iterator. -/
def Merged.collect {σ : Type} (I : IterOps σ) (key : Triple → Triple) (fuel : Nat)
    (m : Merged σ) : Option (List Triple) :=
  collectN (Merged.next I key fuel) fuel m

/-- `TripleChange` (src/layer/internal/subject_iterator.rs:322-326). -/
inductive TripleChange where
  | addition
  | removal
deriving DecidableEq, Repr

/-- `InternalTripleStackIterator::next`
(src/layer/internal/subject_iterator.rs:390-452). -/
def Merged.nextChange {σ : Type} (I : IterOps σ) :
    Nat → Merged σ → Option (Option (TripleChange × Triple) × Merged σ)
  | 0, _ => none
  | fuel + 1, m => do
    let (pheads, ps) ← peekAll I m.positives
    let (nheads, ns) ← peekAll I m.negatives
    match minIndex id pheads, minIndex id nheads with
    | none, none => some (none, ⟨ps, ns⟩)
    | some (i, _), none => do
      let (r, ps') ← nextAt I i ps
      match r with
      | none => none
      | some t => some (some (.addition, t), ⟨ps', ns⟩)
    | none, some (j, _) => do
      let (r, ns') ← nextAt I j ns
      match r with
      | none => none
      | some t => some (some (.removal, t), ⟨ps, ns'⟩)
    | some (i, a), some (j, b) =>
      if a < b then do
        let (r, ps') ← nextAt I i ps
        match r with
        | none => none
        | some t => some (some (.addition, t), ⟨ps', ns⟩)
      else if b < a then do
        let (r, ns') ← nextAt I j ns
        match r with
        | none => none
        | some t => some (some (.removal, t), ⟨ps, ns'⟩)
      else do
        let (r, ps') ← nextAt I i ps
        let (r', ns') ← nextAt I j ns
        match r, r' with
        | some _, some _ => Merged.nextChange I fuel ⟨ps', ns'⟩
        | _, _ => none

/-- All remaining changes of a stack iterator. -/
def Merged.changes {σ : Type} (I : IterOps σ) (fuel : Nat) (m : Merged σ) :
    Option (List (TripleChange × Triple)) :=
  collectN (Merged.nextChange I fuel) fuel m

end Verif
