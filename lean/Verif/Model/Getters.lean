import Verif.Model.Store
import Verif.Model.LayerChanges

/-!
Model of what the layer store tells about single layers without loading their stacks:
the getters of `src/storage/layer.rs`, the versions of `src/storage/cache.rs` that look into
the cache first, and the two change iterators that are built from them.

Each getter sees the files and the cache at one moment (`View`). An error is `Out.err`, a
panic `Out.panic`; the `Option` of the getters that return one is inside.
-/

namespace Verif

variable {K V : Type}

/-- `is_rollup` (src/layer/internal/mod.rs:529-534). -/
def InternalLayer.isRollup : InternalLayer K V → Bool
  | .rollup _ _ _ => true
  | _ => false

namespace Store

/-! ### Without cache -/

/-- The dictionaries, counts and id maps of a stored layer: `None` if there is no such layer
(src/storage/layer.rs:1597-1703). -/
def stored? {α : Type} (st : Store K V) (n : Name) (f : LayerData K V → α) : Option α :=
  (st.get? n).map (fun e => f e.data)

/-- `get_node_dictionary` (src/storage/layer.rs:1597-1606). -/
def nodeDictionary (st : Store K V) (n : Name) : Option (List K) := st.stored? n (·.nodes)

/-- `get_predicate_dictionary` (src/storage/layer.rs:1608-1617). -/
def predicateDictionary (st : Store K V) (n : Name) : Option (List K) := st.stored? n (·.preds)

/-- `get_value_dictionary` (src/storage/layer.rs:1619-1633). -/
def valueDictionary (st : Store K V) (n : Name) : Option (List V) := st.stored? n (·.values)

/-- `get_node_count` (src/storage/layer.rs:1635-1642). -/
def nodeCount (st : Store K V) (n : Name) : Option Nat := st.stored? n (·.nodes.length)

/-- `get_predicate_count` (src/storage/layer.rs:1644-1651). -/
def predicateCount (st : Store K V) (n : Name) : Option Nat := st.stored? n (·.preds.length)

/-- `get_value_count` (src/storage/layer.rs:1653-1660). -/
def valueCount (st : Store K V) (n : Name) : Option Nat := st.stored? n (·.values.length)

/-- `get_node_value_idmap` (src/storage/layer.rs:1662-1682). -/
def nodeValueIdMap (st : Store K V) (n : Name) : Option IdMap := st.stored? n (·.nvMap)

/-- `get_predicate_idmap` (src/storage/layer.rs:1684-1703). -/
def predicateIdMap (st : Store K V) (n : Name) : Option IdMap := st.stored? n (·.pMap)

/-- Answers about the changes of a stored layer: an error if there is no such layer
(src/storage/layer.rs:2238-2486 with 863-1431). -/
def onStored {α : Type} (st : Store K V) (n : Name) (f : LayerData K V → Option α) : Out α :=
  match st.get? n with
  | none => .err
  | some e => Out.ofOption (f e.data)

namespace View

/-- The way all getters of the cached store work (src/storage/cache.rs:140-260, 344-539): a
cached layer is asked unless it is a rollup, otherwise the inner store. -/
def via {α : Type} (v : View K V) (n : Name) (cached : InternalLayer K V → α)
    (inner : Store K V → α) : α :=
  match v.cache n with
  | some l => if l.isRollup then inner v.store else cached l
  | none => inner v.store

/-- `get_layer_parent_name` (src/storage/cache.rs:131-138): also rollups are asked. -/
def parentName (v : View K V) (n : Name) : Out (Option Name) :=
  match v.cache n with
  | some l => .ok l.parentName
  | none => v.store.layerParent n

/-- `get_node_dictionary` (src/storage/cache.rs:140-150). -/
def nodeDictionary (v : View K V) (n : Name) : Option (List K) :=
  v.via n (fun l => some l.data.nodes) (·.nodeDictionary n)

/-- `get_predicate_dictionary` (src/storage/cache.rs:152-162). -/
def predicateDictionary (v : View K V) (n : Name) : Option (List K) :=
  v.via n (fun l => some l.data.preds) (·.predicateDictionary n)

/-- `get_value_dictionary` (src/storage/cache.rs:164-174). -/
def valueDictionary (v : View K V) (n : Name) : Option (List V) :=
  v.via n (fun l => some l.data.values) (·.valueDictionary n)

/-- `get_node_count` (src/storage/cache.rs:176-186). -/
def nodeCount (v : View K V) (n : Name) : Option Nat :=
  v.via n (fun l => some l.data.nodes.length) (·.nodeCount n)

/-- `get_predicate_count` (src/storage/cache.rs:188-198): the inner store is asked for the
number of values. -/
def predicateCount (v : View K V) (n : Name) : Option Nat :=
  v.via n (fun l => some l.data.preds.length) (·.valueCount n)

/-- `get_value_count` (src/storage/cache.rs:200-210). -/
def valueCount (v : View K V) (n : Name) : Option Nat :=
  v.via n (fun l => some l.data.values.length) (·.valueCount n)

/-- `get_node_value_idmap` (src/storage/cache.rs:212-222). -/
def nodeValueIdMap (v : View K V) (n : Name) : Option IdMap :=
  v.via n (fun l => some l.data.nvMap) (·.nodeValueIdMap n)

/-- `get_predicate_idmap` (src/storage/cache.rs:224-234). -/
def predicateIdMap (v : View K V) (n : Name) : Option IdMap :=
  v.via n (fun l => some l.data.pMap) (·.predicateIdMap n)

/-- A question about the changes of one layer that a loaded layer and a stored layer answer in
the same way. -/
def changes {α : Type} (v : View K V) (n : Name) (f : LayerData K V → Option α) : Out α :=
  v.via n (fun l => Out.ofOption (f l.data)) (·.onStored n f)

/-- `triple_addition_exists` (src/storage/cache.rs:344-360, src/storage/layer.rs:2238-2257). -/
def additionExists (v : View K V) (n : Name) (t : Triple) : Out Bool :=
  v.changes n (fun d => d.pos.contains t)

/-- `triple_removal_exists` (src/storage/cache.rs:362-373, src/storage/layer.rs:2259-2281). -/
def removalExists (v : View K V) (n : Name) (t : Triple) : Out Bool :=
  v.changes n (fun d => Stack.removalExists d t)

/-- `triple_additions` run to the end (src/storage/cache.rs:375-386,
src/storage/layer.rs:2283-2293). -/
def additions (v : View K V) (n : Name) : Out (List Triple) := v.changes n (·.pos.triples)

/-- `triple_removals` run to the end (src/storage/cache.rs:388-399,
src/storage/layer.rs:2295-2308). -/
def removals (v : View K V) (n : Name) : Out (List Triple) := v.changes n Stack.removals

/-- `triple_additions_s` (src/storage/cache.rs:401-413, src/storage/layer.rs:2310-2324). -/
def additionsS (v : View K V) (n : Name) (s : Nat) : Out (List Triple) :=
  v.changes n (·.pos.triplesS s)

/-- `triple_removals_s` (src/storage/cache.rs:415-427, src/storage/layer.rs:2326-2343). -/
def removalsS (v : View K V) (n : Name) (s : Nat) : Out (List Triple) :=
  v.changes n (fun d => Stack.removalsS d s)

/-- `triple_additions_sp` (src/storage/cache.rs:429-444, src/storage/layer.rs:2345-2360). -/
def additionsSP (v : View K V) (n : Name) (s p : Nat) : Out (List Triple) :=
  v.changes n (·.pos.triplesSP s p)

/-- `triple_removals_sp` (src/storage/cache.rs:446-461, src/storage/layer.rs:2362-2380). -/
def removalsSP (v : View K V) (n : Name) (s p : Nat) : Out (List Triple) :=
  v.changes n (fun d => Stack.removalsSP d s p)

/-- `triple_additions_p` (src/storage/cache.rs:463-476, src/storage/layer.rs:2382-2401). -/
def additionsP (v : View K V) (n : Name) (p : Nat) : Out (List Triple) :=
  v.changes n (·.pos.triplesP p)

/-- `triple_removals_p` (src/storage/cache.rs:478-491, src/storage/layer.rs:2403-2425). -/
def removalsP (v : View K V) (n : Name) (p : Nat) : Out (List Triple) :=
  v.changes n (fun d => Stack.removalsP d p)

/-- `triple_additions_o` (src/storage/cache.rs:493-505, src/storage/layer.rs:2427-2446): the
answers of a loaded and of a stored layer are made in different ways. -/
def additionsO (v : View K V) (n : Name) (o : Nat) : Out (List Triple) :=
  v.via n (fun l => Out.ofOption (l.data.pos.triplesO o))
    (·.onStored n (·.pos.storedTriplesO o))

/-- `triple_removals_o` (src/storage/cache.rs:507-519, src/storage/layer.rs:2448-2470). -/
def removalsO (v : View K V) (n : Name) (o : Nat) : Out (List Triple) :=
  v.via n (fun l => Out.ofOption (Stack.removalsO l.data o))
    (·.onStored n (fun d => Stack.storedRemovalsO d o))

/-- `triple_layer_addition_count` (src/storage/cache.rs:521-529,
src/storage/layer.rs:2472-2476). -/
def additionCount (v : View K V) (n : Name) : Out Nat := v.changes n (·.pos.count)

/-- `triple_layer_removal_count` (src/storage/cache.rs:531-539,
src/storage/layer.rs:2478-2486). -/
def removalCount (v : View K V) (n : Name) : Out Nat := v.changes n Stack.removalCount

end View

/-! ### Change iterators -/

/-- The two iterators that one round of the walks pushes (src/storage/layer.rs:324-325,
343-344): what `triple_additions` and `triple_removals` return. In round `t` they see the
moments `3 t` and `3 t + 1`. -/
def changeParts (v : Nat → View K V) (t : Nat) (n : Name) :
    Out (Option SubjIter × Option SubjIter) := do
  let p ← (v (3 * t)).changes n (fun d => some (some d.pos.iter))
  let m ← (v (3 * t + 1)).changes n (fun d => some (d.neg.map (·.iter)))
  return (p, m)

/-- The walk of `layer_changes_upto` (src/storage/layer.rs:52-70, 342-345), the topmost layer
first. -/
def changesUptoLoop (v : Nat → View K V) (upto : Name) : Nat → Nat → Name →
    Out (List (Option SubjIter × Option SubjIter))
  | 0, _, _ => .panic
  | f + 1, t, n =>
    if n = upto then .ok []
    else do
      let q ← changeParts v t n
      match ← (v (3 * t + 2)).parentName n with
      | none => .err
      | some p => do
        let r ← changesUptoLoop v upto f (t + 1) p
        return q :: r

/-- The walk of `layer_changes` (src/storage/layer.rs:36-50, 323-326): in every round the
iterators of the layer `n` are pushed, not those of the current layer. -/
def changesLoop (v : Nat → View K V) (n : Name) : Nat → Nat → Name →
    Out (List (Option SubjIter × Option SubjIter))
  | 0, _, _ => .panic
  | f + 1, t, current => do
    let q ← changeParts v t n
    match ← (v (3 * t + 2)).parentName current with
    | none => return [q]
    | some p => do
      let r ← changesLoop v n f (t + 1) p
      return q :: r

/-- `from_parts` (src/layer/internal/subject_iterator.rs:361-369) on the reversed lists
(src/storage/layer.rs:327-332, 346-351). -/
def fromParts (qs : List (Option SubjIter × Option SubjIter)) : Merged (Option SubjIter) :=
  ⟨(qs.map (·.1)).reverse, (qs.map (·.2)).reverse⟩

/-- A bound for the number of changes. -/
def partsFuel : List (Option SubjIter × Option SubjIter) → Nat
  | [] => 1
  | (p, m) :: qs => partsFuel qs + (p.map (·.spo.rightCount)).getD 0 +
      (m.map (·.spo.rightCount)).getD 0

/-- `layer_changes_upto` (src/storage/layer.rs:335-352), run to the end. `f` bounds the length of
the walk. -/
def layerChangesUpto (v : Nat → View K V) (f : Nat) (n upto : Name) :
    Out (List (TripleChange × Triple)) := do
  let qs ← changesUptoLoop v upto f 0 n
  Out.ofOption ((fromParts qs).changes subjOps (partsFuel qs))

/-- `layer_changes` (src/storage/layer.rs:320-333), run to the end. -/
def layerChanges (v : Nat → View K V) (f : Nat) (n : Name) :
    Out (List (TripleChange × Triple)) := do
  let qs ← changesLoop v n f 0 n
  Out.ofOption ((fromParts qs).changes subjOps (partsFuel qs))

end Store

end Verif
