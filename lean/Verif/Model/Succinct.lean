import Verif.Model.Basic

/-!
Interface model of the external crate `tdb-succinct` (its source is not part of
`/repo`; see DESIGN.md, trusted base). Every access that panics in Rust when out
of range returns `none`.
-/

namespace Verif

/-- `tdb_succinct::AdjacencyList`: the right hand sides in order, and one bit per
entry that is set on the last entry of each left hand side. Used through
`/repo/src/layer/internal/{mod,subject_iterator,object_iterator}.rs`. -/
structure AdjList where
  nums : List Nat
  bits : List Bool
deriving DecidableEq, Repr

/-- Position of the `k`-th (1-based) set bit, `BitIndex::select1`. -/
def select1 : List Bool → Nat → Option Nat
  | [], _ => none
  | _ :: _, 0 => none
  | true :: _, 1 => some 0
  | true :: bs, k + 2 => (select1 bs (k + 1)).map (· + 1)
  | false :: bs, k + 1 => (select1 bs (k + 1)).map (· + 1)

namespace AdjList

/-- `AdjacencyList::left_count`: number of set bits. -/
def leftCount (a : AdjList) : Nat := a.bits.count true

/-- `AdjacencyList::right_count`: number of entries. -/
def rightCount (a : AdjList) : Nat := a.bits.length

/-- `AdjacencyList::num_at_pos`. -/
def numAt (a : AdjList) (pos : Nat) : Option Nat := a.nums[pos]?

/-- `AdjacencyList::bit_at_pos`. -/
def bitAt (a : AdjList) (pos : Nat) : Option Bool := a.bits[pos]?

/-- `AdjacencyList::offset_for`: start position of the 1-based left `i`. -/
def offsetFor (a : AdjList) (i : Nat) : Option Nat :=
  if i = 0 then none else if i = 1 then some 0 else (select1 a.bits (i - 1)).map (· + 1)

/-- `AdjacencyList::left_at_pos`: number of groups ended strictly before `pos`,
plus one. -/
def leftAt (a : AdjList) (pos : Nat) : Option Nat :=
  if pos < a.bits.length then some ((a.bits.take pos).count true + 1) else none

/-- `AdjacencyList::pair_at_pos`. -/
def pairAt (a : AdjList) (pos : Nat) : Option (Nat × Nat) := do
  let l ← a.leftAt pos
  let r ← a.numAt pos
  return (l, r)

end AdjList

/-- State of `tdb_succinct::AdjacencyListBuilder`. The bits lag one entry behind
the numbers. -/
structure AdjBuilder where
  lastLeft : Nat := 0
  lastRight : Nat := 0
  bits : List Bool := []
  nums : List Nat := []
deriving DecidableEq, Repr

namespace AdjBuilder

/-- `AdjacencyListBuilder::push`; `none` is the panic on an unordered pair. -/
def push (b : AdjBuilder) (left right : Nat) : Option AdjBuilder :=
  if left < b.lastLeft ∨ (left = b.lastLeft ∧ right ≤ b.lastRight) then none
  else
    let skip := left - b.lastLeft
    let bits :=
      if b.lastLeft = 0 ∧ skip = 1 then b.bits
      else if skip = 0 then b.bits ++ [false]
      else b.bits ++ List.replicate (if b.lastLeft = 0 then skip - 1 else skip) true
    let nums :=
      if b.lastLeft = 0 ∧ skip = 1 then b.nums
      else if skip = 0 then b.nums
      else b.nums ++ List.replicate (skip - 1) 0
    some { lastLeft := left, lastRight := right, bits := bits, nums := nums ++ [right] }

/-- `AdjacencyListBuilder::count`: the number of bits written so far. -/
def count (b : AdjBuilder) : Nat := b.bits.length

/-- `AdjacencyListBuilder::finalize`: writes the last bit. -/
def finalize (b : AdjBuilder) : AdjList :=
  { nums := b.nums, bits := if b.nums = [] then b.bits else b.bits ++ [true] }

/-- Pushing a list of pairs (`AdjacencyListBuilder::push_all`). -/
def pushAll (b : AdjBuilder) : List (Nat × Nat) → Option AdjBuilder
  | [] => some b
  | (l, r) :: ps => do
    let b' ← b.push l r
    b'.pushAll ps

end AdjBuilder

/-- `tdb_succinct::adjacency_list_stream_pairs`: all (left, right) pairs in order,
without the zero stubs that stand for empty lefts. -/
def streamPairs (a : AdjList) : List (Nat × Nat) :=
  ((List.range a.nums.length).filterMap a.pairAt).filter (fun q => q.2 != 0)

/-- `MonotonicLogArray::index_of`. -/
def indexOf (l : List Nat) (x : Nat) : Option Nat :=
  if x ∈ l then some (l.idxOf x) else none

/-- `MonotonicLogArray::nearest_index_of`: index of the first entry that is not
smaller. -/
def nearestIndexOf (l : List Nat) (x : Nat) : Nat := (l.takeWhile (· < x)).length

/-- `WaveletTree::lookup`: the positions of an entry in increasing order, or
`None` if it does not occur (this also covers entries that do not fit the width). -/
def waveletLookup (w : List Nat) (x : Nat) : Option (List Nat) :=
  match (List.range w.length).filter (fun i => w[i]? == some x) with
  | [] => none
  | l => some l

end Verif
