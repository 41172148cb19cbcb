import Verif.Model.Out
import Verif.Model.Reach

/-!
Model of the layer store: the parts of `src/storage/layer.rs` that work on whole
layers, the rollup operations of `src/storage/delta.rs` and the cache
(`src/storage/cache.rs`).

A store maps names to the files of a layer. The files are modelled by their parsed
contents; the dictionaries and indexes of a layer are written before its name is
returned and never again, so an entry appears complete. The directories that a
failed operation leaves behind are not modelled: nothing refers to them. Names of
new layers are random numbers of 160 bits; here they are arguments, assumed fresh
where it matters.
-/

namespace Verif

variable {K V : Type}

/-- The files of a stored layer: the parent file (src/storage/layer.rs:654-675), the rollup
file (src/storage/layer.rs:678-715) and the rest. -/
structure Entry (K V : Type) where
  parent : Option Name
  rollup : Option Name := none
  data : LayerData K V

/-- The stored layers, newest first. -/
abbrev Store (K V : Type) := List (Name × Entry K V)

/-- A layer loaded on top of `S` (src/layer/internal/child.rs:64-197, 166-171): the parent
counts are taken from the loaded parent. -/
def LayerData.onTop (d : LayerData K V) (S : List (LayerData K V)) : LayerData K V :=
  { d with parentNV := Stack.nvCount S, parentP := Stack.pCount S }

namespace Store

/-- The files of a layer, if its directory exists. -/
def get? : Store K V → Name → Option (Entry K V)
  | [], _ => none
  | (m, e) :: st, n => if m = n then some e else get? st n

/-- `directory_exists` (src/storage/layer.rs:366). -/
def has (st : Store K V) (n : Name) : Bool := (st.get? n).isSome

/-- `layer_has_parent` with `read_parent_file` (src/storage/layer.rs:377-379, 666-675). -/
def parent? (st : Store K V) (n : Name) : Option Name := (st.get? n).bind (·.parent)

/-- `layer_has_rollup` with `read_rollup_file` (src/storage/layer.rs:374-376, 692-715). -/
def rollup? (st : Store K V) (n : Name) : Option Name := (st.get? n).bind (·.rollup)

/-- `write_rollup_file` (src/storage/layer.rs:678-690): replaces an earlier rollup. -/
def setRollup (st : Store K V) (n r : Name) : Store K V :=
  st.map (fun q => if q.1 = n then (q.1, { q.2 with rollup := some r }) else q)

/-- `layer_parent` (src/storage/layer.rs:381-395). -/
def layerParent (st : Store K V) (n : Name) : Out (Option Name) :=
  match st.get? n with
  | none => .err
  | some e => .ok e.parent

/-- The number of layers that are older than the one with this name. -/
def index : Store K V → Name → Nat
  | [], _ => 0
  | (m, _) :: st, n => if m = n then st.length else index st n

/-- The layers stored under a name and its parents, topmost first, rollups disregarded: the
layer files and parent files that a pack has of them (src/storage/pack.rs:190-232). -/
inductive Raw (st : Store K V) : Name → List (LayerData K V) → Prop
  | base {n e} : st.get? n = some e → e.parent = none → Raw st n [e.data.onTop []]
  | child {n e p S} : st.get? n = some e → e.parent = some p → Raw st p S →
      Raw st n (e.data.onTop S :: S)

/-- The stored stack below an entry (src/storage/layer.rs:654-675). -/
def Below (st : Store K V) (e : Entry K V) (S : List (LayerData K V)) : Prop :=
  match e.parent with
  | none => S = []
  | some p => Raw st p S

/-- Enough steps for walks along parents in a store without cycles. -/
def fuel (st : Store K V) : Nat := st.length + 1

/-! ### Walks along the parents -/

/-- The loop of `retrieve_layer_stack_names`, topmost name first. -/
def stackNamesLoop (st : Store K V) : Nat → Name → Out (List Name)
  | 0, _ => .panic
  | f + 1, n =>
    match st.parent? n with
    | none => .ok [n]
    | some p => do
      let r ← stackNamesLoop st f p
      return n :: r

/-- `retrieve_layer_stack_names` (src/storage/layer.rs:2488-2501). -/
def stackNames (st : Store K V) (n : Name) : Out (List Name) := do
  let r ← stackNamesLoop st st.fuel n
  return r.reverse

/-- The loop of `retrieve_layer_stack_names_upto`, topmost name first. -/
def stackNamesUptoLoop (st : Store K V) (upto : Name) : Nat → Name → Out (List Name)
  | 0, _ => .panic
  | f + 1, n =>
    match st.parent? n with
    | none => .err
    | some p =>
      if p = upto then .ok [n]
      else do
        let r ← stackNamesUptoLoop st upto f p
        return n :: r

/-- `retrieve_layer_stack_names_upto` (src/storage/layer.rs:2503-2527). -/
def stackNamesUpto (st : Store K V) (n upto : Name) : Out (List Name) := do
  let r ← stackNamesUptoLoop st upto st.fuel n
  return r.reverse

/-- The loop of `layer_is_ancestor_of`. -/
def isAncestorLoop (st : Store K V) (ancestor : Name) : Nat → Name → Out Bool
  | 0, _ => .panic
  | f + 1, d =>
    if ancestor = d then .ok true
    else
      match st.parent? d with
      | some p => isAncestorLoop st ancestor f p
      | none => .ok false

/-- `layer_is_ancestor_of` (src/storage/layer.rs:2219-2236). -/
def isAncestor (st : Store K V) (descendant ancestor : Name) : Out Bool :=
  isAncestorLoop st ancestor st.fuel descendant

/-- `walk_backwards_from_disk_upto!` (src/storage/layer.rs:53-70) around the getters of
src/storage/delta.rs:47-140 and `layer_changes_upto` (src/storage/layer.rs:335-352): the
contents of the visited layers, topmost first. A missing layer fails the `expect`
of the getters. -/
def diskLevels (st : Store K V) (upto : Name) : Nat → Name → Out (List (LayerData K V))
  | 0, _ => .panic
  | f + 1, n =>
    if n = upto then .ok []
    else
      match st.get? n with
      | none => .panic
      | some e =>
        match e.parent with
        | none => .err
        | some p => do
          let r ← diskLevels st upto f p
          return e.data :: r

/-- The counts that `squash_upto` adds up along the parents of `upto`
(src/storage/layer.rs:1964-1974): nodes and values, and predicates. A layer that does not
exist has no parent name (`layer_parent` fails). -/
def countsLoop (st : Store K V) : Nat → Name → Out (Nat × Nat)
  | 0, _ => .panic
  | f + 1, n =>
    match st.get? n with
    | none => .err
    | some e => do
      let r ← match e.parent with
        | none => Out.ok (0, 0)
        | some p => countsLoop st f p
      return (r.1 + (e.data.nodes.length + e.data.values.length), r.2 + e.data.preds.length)

/-! ### Loading -/

/-- A cache: `LayerCache` (src/storage/cache.rs:10-27). With weak pointers any entry can
vanish at any time. -/
abbrev Cache (K V : Type) := Name → Option (InternalLayer K V)

/-- `NoCache` (src/storage/cache.rs:18-27). -/
def noCache : Cache K V := fun _ => none

/-- `cache_layer` (src/storage/cache.rs:71-77). -/
def Cache.insert (c : Cache K V) (l : InternalLayer K V) : Cache K V :=
  fun n => if n = l.name then some l else c n

/-- `invalidate` (src/storage/cache.rs:79-88), or the loss of a weak pointer. -/
def Cache.remove (c : Cache K V) (n : Name) : Cache K V :=
  fun m => if m = n then none else c m

/-- An element of `layers_to_load` (src/storage/layer.rs:1442-1443): a name, and the rollup
to load in its place with the parent of the original. -/
abbrev Pending := Name × Option (Name × Option Name)

/-- The name that is looked for next (src/storage/layer.rs:1452-1458). -/
def Pending.current : Pending → Name
  | (n, none) => n
  | (_, some (r, _)) => r

/-- What a loading task sees at one moment: the files and the cache. Other tasks change
both between the moments. -/
structure View (K V : Type) where
  store : Store K V
  cache : Cache K V

/-- A cached layer found for a pending element (src/storage/layer.rs:1461-1490). -/
def wrapCached (layer : InternalLayer K V) : Pending → Out (InternalLayer K V)
  | (_, none) => .ok layer
  | (orig, some (_, op)) =>
    if layer.immediateParent.isSome then
      match op with
      | some p => .ok (.rollup layer orig (some p))
      | none => .panic
    else .ok (.rollup layer orig op)

/-- The loop that looks for a cached ancestor (src/storage/layer.rs:1449-1520). The list is
`layers_to_load` with its last element first; `v t` is what the task sees in round `t`. The
rollup and parent files are each read in one step. -/
def findAncestor (v : Nat → View K V) : Nat → Nat → List Pending →
    Out (Option (InternalLayer K V) × List Pending)
  | 0, _, _ => .panic
  | _, _, [] => .panic
  | f + 1, t, q :: rest =>
    match (v t).cache q.current with
    | some layer => do
      let l ← wrapCached layer q
      return (some l, rest)
    | none =>
      match (v t).store.rollup? q.current with
      | some r =>
        if r = q.current then .panic
        else findAncestor v f (t + 1)
          ((q.current, some (r, (v t).store.parent? q.current)) :: rest)
      | none =>
        match (v t).store.parent? q.current with
        | some p => findAncestor v f (t + 1) ((p, none) :: q :: rest)
        | none => .ok (none, q :: rest)

/-- The contents of a stored layer; a missing file is an error. -/
def load (st : Store K V) (n : Name) : Out (LayerData K V) :=
  match st.get? n with
  | none => .err
  | some e => .ok e.data

/-- Load the base layer of the list (src/storage/layer.rs:1522-1556). The second component
are the layers given to the cache, in order. -/
def loadBase (st : Store K V) : Pending → Out (InternalLayer K V × List (InternalLayer K V))
  | (n, none) => do
    let d ← load st n
    let l : InternalLayer K V := .base n (d.onTop [])
    return (l, [l])
  | (n, some (r, op)) => do
    let d ← load st r
    let b : InternalLayer K V := .base r (d.onTop [])
    let l : InternalLayer K V := .rollup b n op
    return (l, [b, l])

/-- Load one child layer (src/storage/layer.rs:1561-1588). -/
def loadChild (st : Store K V) (anc : InternalLayer K V) :
    Pending → Out (InternalLayer K V × List (InternalLayer K V))
  | (n, none) => do
    let d ← load st n
    let l : InternalLayer K V := .child n (d.onTop anc.stack) anc
    return (l, [l])
  | (n, some (r, op)) =>
    match op with
    | none => .panic
    | some p => do
      let d ← load st r
      let c : InternalLayer K V := .child r (d.onTop anc.stack) anc
      let l : InternalLayer K V := .rollup c n (some p)
      return (l, [c, l])

/-- Load all child layers of the list (src/storage/layer.rs:1558-1592). -/
def loadChildren (st : Store K V) : InternalLayer K V → List Pending → List (InternalLayer K V) →
    Out (InternalLayer K V × List (InternalLayer K V))
  | anc, [], cs => .ok (anc, cs)
  | anc, q :: qs, cs => do
    let r ← loadChild st anc q
    loadChildren st r.1 qs (cs ++ r.2)

/-- The part of `get_layer_with_cache` after the ancestor is found
(src/storage/layer.rs:1522-1596). -/
def loadAll (st : Store K V) (found : Option (InternalLayer K V)) (qs : List Pending) :
    Out (InternalLayer K V × List (InternalLayer K V)) :=
  match found with
  | some anc => loadChildren st anc qs []
  | none =>
    match qs with
    | [] => .panic
    | q :: qs => do
      let r ← loadBase st q
      loadChildren st r.1 qs r.2

/-- `get_layer_with_cache` (src/storage/layer.rs:1433-1597) while other tasks are running:
`v t` is what the task sees in round `t`, `last` what it sees when it loads the files.
The result is the layer and the layers given to the cache. -/
def getLayerView (v : Nat → View K V) (f : Nat) (last : Store K V) (n : Name) :
    Out (Option (InternalLayer K V) × List (InternalLayer K V)) :=
  match (v 0).cache n with
  | some l => .ok (some l, [])
  | none =>
    if (v 0).store.has n then do
      let r ← findAncestor v f 1 [(n, none)]
      let q ← loadAll last r.1 r.2
      return (some q.1, q.2)
    else .ok (none, [])

/-- Enough rounds for the loop of `get_layer_with_cache`. -/
def loadFuel (st : Store K V) : Nat := (st.length + 1) * (st.length + 1)

/-- `get_layer_with_cache` when nothing else is running. -/
def getLayer (st : Store K V) (c : Cache K V) (n : Name) :
    Out (Option (InternalLayer K V) × List (InternalLayer K V)) :=
  getLayerView (fun _ => ⟨st, c⟩) st.loadFuel st n

/-! ### Rollups -/

/-- The loop of `safe_upto_bound`: `names` are the names of the loaded layers below the
current one, `disk` the stored names from `upto` up. -/
def boundLoop (upto : Name) : Name → List Name → List Name → Name
  | cur, [], _ => cur
  | cur, p :: rest, disk =>
    if p = upto then upto
    else if p ∈ disk then boundLoop upto p rest (disk.take (disk.idxOf p))
    else cur

/-- `safe_upto_bound` (src/storage/delta.rs:8-45). -/
def safeUptoBound (st : Store K V) (l : InternalLayer K V) (upto : Name) : Out Name :=
  if l.name = upto then .ok upto
  else do
    let disk ← st.stackNamesUpto l.name upto
    return boundLoop upto l.name (l.levels.map Prod.fst).tail disk

/-- `immediate_layers_upto` (src/layer/internal/mod.rs:502-527), and the same walk in
`InternalTripleStackIterator::from_layer_stack` (src/layer/internal/subject_iterator.rs:329-363);
topmost first. -/
def layersUpto (bound : Name) : List (Name × LayerData K V) → Out (List (LayerData K V))
  | [] => .panic
  | (n, d) :: rest =>
    if n = bound then .ok []
    else do
      let r ← layersUpto bound rest
      return d :: r

/-- `immediate_layers_upto` panics when the boundary is the top layer. -/
def immediateLayersUpto (l : InternalLayer K V) (bound : Name) : Out (List (LayerData K V)) :=
  if l.name = bound then .panic else layersUpto bound l.levels

section
variable [LinearOrder K] [LinearOrder V]

/-- What an operation is going to do with the store: return an existing layer, or write a
new one. -/
inductive Plan (K V : Type) where
  | existing (n : Name)
  | write (e : Entry K V)

/-- Write a new layer under the name `new`: `create_directory`, the files, `finalize`. -/
def Plan.apply (new : Name) (st : Store K V) : Plan K V → Name × Store K V
  | .existing n => (n, st)
  | .write e => (new, (new, e) :: st)

/-- `perform_rollup` (src/storage/layer.rs:1727-1750), up to the writing. -/
def performRollup (st : Store K V) (l : InternalLayer K V) : Out (Plan K V) :=
  match l.parentName with
  | none => .ok (.existing l.name)
  | some _ =>
    let write : Out (Plan K V) := do
      let d ← Out.ofOption (Rollup.deltaRollup l.stack)
      return .write { parent := none, data := d }
    match st.rollup? l.name with
    | some r => if (st.parent? r).isNone then .ok (.existing r) else write
    | none => write

/-- `perform_rollup` (src/storage/layer.rs:1727-1750) while other tasks are running: it sees `v 0`
when it looks for the rollup file, `v 1` when it reads it, and `v 2` when it looks for the parent
file of the rollup. -/
def performRollupView (v : Nat → View K V) (l : InternalLayer K V) : Out (Plan K V) :=
  match l.parentName with
  | none => .ok (.existing l.name)
  | some _ =>
    let write : Out (Plan K V) := do
      let d ← Out.ofOption (Rollup.deltaRollup l.stack)
      return .write { parent := none, data := d }
    if ((v 0).store.rollup? l.name).isSome then
      match (v 1).store.rollup? l.name with
      | none => .err
      | some r => if ((v 2).store.parent? r).isNone then .ok (.existing r) else write
    else write

/-- `register_rollup` (src/storage/layer.rs:1822-1829). -/
def registerRollup (st : Store K V) (n r : Name) : Store K V :=
  if n = r then st else st.setRollup n r

/-- `rollup` (src/storage/layer.rs:155-161) with nothing else running; `new` is the name of a
new layer. -/
def rollup (st : Store K V) (l : InternalLayer K V) (new : Name) : Out (Name × Store K V) := do
  let r ← performRollup st l
  let q := r.apply new st
  return (q.1, registerRollup q.2 l.name q.1)

/-- The two halves of `perform_rollup_upto_with_cache` and
`perform_imprecise_rollup_upto_with_cache` (src/storage/layer.rs:1752-1785, 1787-1820), which
differ only in the function that makes the contents; up to the writing. -/
def performRollupUptoWith (mk : Store K V → InternalLayer K V → List (LayerData K V) →
      Out (LayerData K V))
    (st : Store K V) (c : Cache K V) (l : InternalLayer K V) (upto : Name) : Out (Plan K V) :=
  if l.name = upto then .ok (.existing l.name)
  else if l.parentName = some upto then .ok (.existing l.name)
  else
    let write : Out (Plan K V) := do
      let r ← st.getLayer c upto
      match r.1 with
      | none => .err
      | some pl => do
        let d ← mk st l pl.stack
        return .write { parent := some upto, data := d }
    match st.rollup? l.name with
    | none => write
    | some r =>
      match st.parent? r with
      | none => .err
      | some p => if upto = p then .ok (.existing r) else write

/-- The same while other tasks are running: `v 0`, `v 1` and `v 2` are seen when the rollup file is
looked for, when it is read and when the parent file of the rollup is read, the next ones in the
rounds of loading `upto`, and `st` at the end. What `mk` reads from `st` are files that never
change. -/
def performRollupUptoWithView (mk : Store K V → InternalLayer K V → List (LayerData K V) →
      Out (LayerData K V))
    (v : Nat → View K V) (f : Nat) (st : Store K V) (l : InternalLayer K V) (upto : Name) :
    Out (Plan K V) :=
  if l.name = upto then .ok (.existing l.name)
  else if l.parentName = some upto then .ok (.existing l.name)
  else
    let write : Out (Plan K V) := do
      let r ← getLayerView (fun t => v (t + 3)) f st upto
      match r.1 with
      | none => .err
      | some pl => do
        let d ← mk st l pl.stack
        return .write { parent := some upto, data := d }
    if ((v 0).store.rollup? l.name).isSome then
      match (v 1).store.rollup? l.name with
      | none => .err
      | some r =>
        match (v 2).store.parent? r with
        | none => .err
        | some p => if upto = p then .ok (.existing r) else write
    else write

/-- `delta_rollup_upto` (src/storage/delta.rs:367-434) with the layers it collects. -/
def preciseDelta (upto : Name) (st : Store K V) (l : InternalLayer K V) (S : List (LayerData K V)) :
    Out (LayerData K V) := do
  let bound ← st.safeUptoBound l upto
  let disk ← st.diskLevels upto st.fuel bound
  let mem ← immediateLayersUpto l bound
  Out.ofOption (Rollup.deltaRollupUpto mem disk S)

/-- `imprecise_delta_rollup_upto` (src/storage/delta.rs:301-365) with the layers it
collects. -/
def impreciseDelta (upto : Name) (st : Store K V) (l : InternalLayer K V)
    (S : List (LayerData K V)) : Out (LayerData K V) := do
  let bound ← st.safeUptoBound l upto
  let mem ← immediateLayersUpto l bound
  Out.ofOption (Rollup.impreciseDeltaRollupUpto mem S)

/-- `perform_rollup_upto_with_cache` (src/storage/layer.rs:1752-1785). -/
def performRollupUpto (st : Store K V) (c : Cache K V) (l : InternalLayer K V) (upto : Name) :
    Out (Plan K V) :=
  performRollupUptoWith (preciseDelta upto) st c l upto

/-- `perform_imprecise_rollup_upto_with_cache` (src/storage/layer.rs:1787-1820). -/
def performImpreciseRollupUpto (st : Store K V) (c : Cache K V) (l : InternalLayer K V)
    (upto : Name) : Out (Plan K V) :=
  performRollupUptoWith (impreciseDelta upto) st c l upto

/-- `rollup_upto_with_cache` (src/storage/layer.rs:163-176) with nothing else running. -/
def rollupUpto (st : Store K V) (c : Cache K V) (l : InternalLayer K V) (upto new : Name) :
    Out (Name × Store K V) := do
  let r ← performRollupUpto st c l upto
  let q := r.apply new st
  return (q.1, registerRollup q.2 l.name q.1)

/-- `imprecise_rollup_upto_with_cache` (src/storage/layer.rs:190-203) with nothing else
running. -/
def impreciseRollupUpto (st : Store K V) (c : Cache K V) (l : InternalLayer K V)
    (upto new : Name) : Out (Name × Store K V) := do
  let r ← performImpreciseRollupUpto st c l upto
  let q := r.apply new st
  return (q.1, registerRollup q.2 l.name q.1)

/-! ### Squash -/

/-- `squash` (src/storage/layer.rs:1831-1961), up to the writing. -/
def squash (l : InternalLayer K V) : Out (Plan K V) := do
  let d ← Out.ofOption (Rollup.squash l.stack)
  return .write { parent := none, data := d }

/-- The stored contents of the named layers. -/
def loadNames (st : Store K V) : List Name → Out (List (LayerData K V))
  | [] => .ok []
  | n :: ns => do
    let d ← load st n
    let r ← loadNames st ns
    return d :: r

/-- `squash_upto` (src/storage/layer.rs:1963-2188), up to the writing. -/
def squashUpto (st : Store K V) (l : InternalLayer K V) (upto : Name) : Out (Plan K V) := do
  let (nv, p) ← st.countsLoop st.fuel upto
  let names ← st.stackNamesUpto l.name upto
  let T ← st.loadNames names.reverse
  let r ← st.getLayer noCache upto
  match r.1 with
  | none => .panic
  | some pl => do
    let d ← Out.ofOption (Rollup.squashUpto nv p T pl.stack)
    return .write { parent := some upto, data := d }

/-- The same while other tasks are running: `v` is seen in the rounds of loading `upto`. The other
reads are of files that never change. -/
def squashUptoView (v : Nat → View K V) (f : Nat) (st : Store K V) (l : InternalLayer K V)
    (upto : Name) : Out (Plan K V) := do
  let (nv, p) ← st.countsLoop st.fuel upto
  let names ← st.stackNamesUpto l.name upto
  let T ← st.loadNames names.reverse
  let r ← getLayerView v f st upto
  match r.1 with
  | none => .panic
  | some pl => do
    let d ← Out.ofOption (Rollup.squashUpto nv p T pl.stack)
    return .write { parent := some upto, data := d }

/-! With nothing else running these are the functions above. -/

theorem performRollupView_const (st : Store K V) (c : Cache K V) (l : InternalLayer K V) :
    performRollupView (fun _ => ⟨st, c⟩) l = performRollup st l := by
  unfold performRollupView performRollup
  cases l.parentName with
  | none => rfl
  | some p => cases h : st.rollup? l.name <;> simp

omit [LinearOrder K] [LinearOrder V] in
theorem performRollupUptoWithView_const {mk : Store K V → InternalLayer K V →
      List (LayerData K V) → Out (LayerData K V)} (st : Store K V) (c : Cache K V)
    (l : InternalLayer K V) (upto : Name) :
    performRollupUptoWithView mk (fun _ => ⟨st, c⟩) st.loadFuel st l upto =
      performRollupUptoWith mk st c l upto := by
  unfold performRollupUptoWithView performRollupUptoWith getLayer
  cases h : st.rollup? l.name <;> simp

theorem squashUptoView_const (st : Store K V) (l : InternalLayer K V) (upto : Name) :
    squashUptoView (fun _ => ⟨st, noCache⟩) st.loadFuel st l upto = squashUpto st l upto := rfl

end

end Store

end Verif
