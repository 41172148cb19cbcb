import Verif.Model.StoreMerge
import Verif.Model.Resolve
import Verif.History
import Verif.Model.Form

/-!
The executions of a store that many tasks use at the same time.

A state of the world is the store, the cache, and what the tasks have in hand. Every
step is one of: a load that was under way ends, a layer is put into or lost from
the cache, a builder commits, an operation decides what it is going to write, a new
layer is written, a rollup is registered. The steps of different tasks interleave
in any order; what an operation has read stays in its hands while others go on.
-/

namespace Verif

open SimpleBuilder Spec

variable {K V : Type} [LinearOrder K] [LinearOrder V]

/-- The call on a value triple that a builder call amounts to on `S`: an id triple is
replaced by the strings it stands for. -/
def opCall (S : List (LayerData K V)) : Op K V → Option (Call (VTriple K V))
  | .addValue t => some (.add t)
  | .removeValue t => some (.remove t)
  | .addId u =>
    match Stack.idTripleToString S u with
    | some (some t) => some (.add t)
    | _ => none
  | .removeId u =>
    match Stack.idTripleToString S u with
    | some (some t) => some (.remove t)
    | _ => none

/-- A stored layer has the form that goes with its parent: it was written by one of the two
file builders (src/layer/internal/base.rs:38-80, src/layer/internal/child.rs:64-120). -/
def Entry.Form (e : Entry K V) : Prop :=
  match e.parent with
  | none => e.data.BaseForm
  | some _ => e.data.ChildForm

/-- What a task has decided to do. -/
inductive Task where
  | rollup (of : Name)
  | squash (of : Name)
  | squashUpto (of upto : Name)
  | merge (ofs : List Name)

/-- The state of the world. -/
structure World (K V : Type) where
  /-- The stored layers. -/
  store : Store K V := []
  /-- The cache. -/
  cache : Store.Cache K V := Store.noCache
  /-- What could be seen at earlier moments, newest first. -/
  past : List (Store.View K V) := []
  /-- The layers that were returned, with the names they were asked for by. -/
  held : List (Name × InternalLayer K V) := []
  /-- The layers that loads have made; `cache_layer` may be called on them at any time. -/
  loaded : List (InternalLayer K V) := []
  /-- The decisions of rollups, squashes and merges. -/
  plans : List (Task × Store.Plan K V) := []
  /-- The rollups that are made but perhaps not yet registered. -/
  pending : List (Name × Name) := []
  /-- The operations that made layers, newest first. -/
  log : History (VTriple K V) := []

namespace World

/-- What can be seen now and could be seen before. -/
def seen (w : World K V) : List (Store.View K V) := ⟨w.store, w.cache⟩ :: w.past

/-- What a task may see from one await to the next: the files at some moment, and some of the
layers that were cached then. The moments do not go backwards. -/
def Sees (w : World K V) (v : Nat → Store.View K V) : Prop :=
  ∃ i : Nat → Nat, (∀ t, i (t + 1) ≤ i t) ∧ ∀ t, ∃ u, w.seen[i t]? = some u ∧
    (v t).store = u.store ∧ ∀ n l, (v t).cache n = some l → u.cache n = some l

/-- One step of one task. With `safe` the two rollups down to an ancestor and the merge are limited
to the cases in which the code is right (DESIGN.md, section 4). -/
inductive Step (safe : Bool) : World K V → World K V → Prop
  /-- A load of `n` ends with the layer `l` (src/storage/layer.rs:1433-1597). In round `t` it
  saw what could be seen at the moment `i t`; the moments do not go backwards. -/
  | load {w : World K V} {v : Nat → Store.View K V} {i : Nat → Nat} {f n l cs} :
      (∀ t, w.seen[i t]? = some (v t)) → (∀ t, i (t + 1) ≤ i t) →
      Store.getLayerView v f w.store n = .ok (some l, cs) →
      Step safe w { w with held := (n, l) :: w.held, loaded := cs ++ w.loaded, past := w.seen }
  /-- `cache_layer` (src/storage/cache.rs:71-77). -/
  | cacheLayer {w l} : l ∈ w.loaded → Step safe w { w with cache := w.cache.insert l, past := w.seen }
  /-- `invalidate` (src/storage/cache.rs:79-88), or the last strong pointers to some cached
  layers are dropped. -/
  | evict {w c} : (∀ n l, c n = some l → w.cache n = some l) →
      Step safe w { w with cache := c, past := w.seen }
  /-- A builder without parent commits (src/storage/layer.rs:1705-1709,
  src/layer/simple_builder.rs:265-384). -/
  | commitBase {w new ops d} : w.store.get? new = none → (∀ op ∈ ops, IdsKnown [] op) →
      Commits [] ops d →
      Step safe w { w with store := (new, { parent := none, data := d }) :: w.store
                           past := w.seen
                           log := .commit new none (ops.filterMap (opCall [])) :: w.log }
  /-- A builder on a layer that was loaded as `p` commits (src/storage/layer.rs:717-737,
  1711-1725). -/
  | commit {w p l new ops d} : (p, l) ∈ w.held → w.store.get? new = none →
      (∀ op ∈ ops, IdsKnown l.stack op) → Commits l.stack ops d →
      Step safe w { w with store := (new, { parent := some p, data := d }) :: w.store
                           past := w.seen
                           log := .commit new (some p) (ops.filterMap (opCall l.stack)) :: w.log }
  /-- `import_layers` ends the import of one layer (src/storage/pack.rs:63-136): the store gets
  the files of a layer that some store has made on top of the same files, in the same form. The
  layers of one pack get in one by one, parents first; the layer is not one that was written as
  a rollup, whose names no call returns. Importing a layer that is there already is left out. -/
  | importLayer {w new e S T} : w.store.get? new = none → e.rollup = none → Store.Below w.store e S →
      Reachable (e.data :: S) → e.Form → e.data.Plain →
      (∀ t, T t ↔ Stack.valueTripleExists (e.data :: S) t = some true) →
      Step safe w { w with store := (new, e) :: w.store
                           past := w.seen
                           log := .imported new e.parent T :: w.log }
  /-- `rollup` decides (src/storage/layer.rs:1727-1750). -/
  | decideRollup {w q l pl v} : (q, l) ∈ w.held → w.Sees v → Store.performRollupView v l = .ok pl →
      Step safe w { w with plans := (.rollup l.name, pl) :: w.plans, past := w.seen }
  /-- `rollup_upto` decides (src/storage/layer.rs:1752-1785). It is safe when it writes
  nothing, or no loaded layer above the bound has an id map. That the layers which it loads get
  into the cache is a step `load`. -/
  | decideRollupUpto {w q l upto pl v f} : (q, l) ∈ w.held → w.Sees v →
      (safe = true → ∀ e, pl = .write e → ∀ bound mem, w.store.safeUptoBound l upto = .ok bound →
        Store.immediateLayersUpto l bound = .ok mem → ∀ e ∈ mem, e.pMap = e.nvMap) →
      Store.performRollupUptoWithView (Store.preciseDelta upto) v f w.store l upto = .ok pl →
      Step safe w { w with plans := (.rollup l.name, pl) :: w.plans, past := w.seen }
  /-- `imprecise_rollup_upto` decides (src/storage/layer.rs:1787-1820). It is safe when it
  writes nothing, or the bound is the layer it was asked for. The code never looks at the
  cache here (src/storage/cache.rs does not override it); `v` allows that. -/
  | decideImpreciseRollupUpto {w q l upto pl v f} : (q, l) ∈ w.held → w.Sees v →
      (safe = true → ∀ e, pl = .write e → ∀ bound, w.store.safeUptoBound l upto = .ok bound →
        bound = upto) →
      Store.performRollupUptoWithView (Store.impreciseDelta upto) v f w.store l upto = .ok pl →
      Step safe w { w with plans := (.rollup l.name, pl) :: w.plans, past := w.seen }
  /-- `squash` decides (src/storage/layer.rs:1831-1961). -/
  | planSquash {w q l pl} : (q, l) ∈ w.held → Store.squash l = .ok pl →
      Step safe w { w with plans := (.squash l.name, pl) :: w.plans, past := w.seen }
  /-- `squash_upto` decides (src/storage/layer.rs:1963-2188). The code does not use the cache here;
  `v` allows that. -/
  | decideSquashUpto {w q l upto pl v f} : (q, l) ∈ w.held → w.Sees v →
      Store.squashUptoView v f w.store l upto = .ok pl →
      Step safe w { w with plans := (.squashUpto l.name upto, pl) :: w.plans, past := w.seen }
  /-- `merge_base_layer` reads the files of the given layers (src/storage/layer.rs:2190-2217).
  It is safe when these have no id maps and no values as subjects. -/
  | planMerge {w ns pl} :
      (safe = true → ∀ n ∈ ns, ∀ e, w.store.get? n = some e → BaseMerge.Clean e.data) →
      w.store.mergeBase ns = .ok pl →
      Step safe w { w with plans := (.merge ns, pl) :: w.plans, past := w.seen }
  /-- A rollup returns an existing layer. -/
  | keep {w n r} : (.rollup n, .existing r) ∈ w.plans →
      Step safe w { w with pending := (n, r) :: w.pending, past := w.seen }
  /-- A rollup writes its layer. -/
  | writeRollup {w n e new} : (.rollup n, .write e) ∈ w.plans → w.store.get? new = none →
      Step safe w { w with store := (new, e) :: w.store
                           past := w.seen
                           pending := (n, new) :: w.pending
                           log := .rollup new n e.parent :: w.log }
  /-- A squash writes its layer. -/
  | writeSquash {w n e new} : (.squash n, .write e) ∈ w.plans → w.store.get? new = none →
      Step safe w { w with store := (new, e) :: w.store
                           past := w.seen
                           log := .squash new n :: w.log }
  /-- A squash down to an ancestor writes its layer. -/
  | writeSquashUpto {w n u e new} : (.squashUpto n u, .write e) ∈ w.plans →
      w.store.get? new = none →
      Step safe w { w with store := (new, e) :: w.store
                           past := w.seen
                           log := .squashUpto new n u :: w.log }
  /-- A merge writes its layer. -/
  | writeMerge {w ns e new} : (.merge ns, .write e) ∈ w.plans → w.store.get? new = none →
      Step safe w { w with store := (new, e) :: w.store
                           past := w.seen
                           log := .merge new ns :: w.log }
  /-- `register_rollup` (src/storage/layer.rs:1822-1829); the cached store then invalidates
  the name (src/storage/cache.rs:305-312), which is a step `evict`. -/
  | register {w n r} : (n, r) ∈ w.pending →
      Step safe w { w with store := Store.registerRollup w.store n r, past := w.seen }

/-! Decisions all of whose reads are at the present moment. -/

omit [LinearOrder K] [LinearOrder V] in
theorem Sees.now (w : World K V) {c : Store.Cache K V}
    (hc : ∀ n l, c n = some l → w.cache n = some l) : w.Sees fun _ => ⟨w.store, c⟩ :=
  ⟨fun _ => 0, fun _ => Nat.le_refl _, fun _ => ⟨⟨w.store, w.cache⟩, rfl, rfl, hc⟩⟩

theorem Step.planRollup {safe : Bool} {w : World K V} {q : Name} {l : InternalLayer K V}
    {pl : Store.Plan K V} (hm : (q, l) ∈ w.held) (h : Store.performRollup w.store l = .ok pl) :
    Step safe w { w with plans := (.rollup l.name, pl) :: w.plans, past := w.seen } :=
  .decideRollup hm (Sees.now w fun _ _ h => h) ((Store.performRollupView_const _ _ _).trans h)

theorem Step.planRollupUpto {safe : Bool} {w : World K V} {q : Name} {l : InternalLayer K V}
    {upto : Name} {pl : Store.Plan K V} {c : Store.Cache K V} (hm : (q, l) ∈ w.held)
    (hc : ∀ n l, c n = some l → w.cache n = some l)
    (hs : safe = true → ∀ e, pl = .write e → ∀ bound mem,
      w.store.safeUptoBound l upto = .ok bound →
        Store.immediateLayersUpto l bound = .ok mem → ∀ e ∈ mem, e.pMap = e.nvMap)
    (h : Store.performRollupUpto w.store c l upto = .ok pl) :
    Step safe w { w with plans := (.rollup l.name, pl) :: w.plans, past := w.seen } :=
  .decideRollupUpto hm (Sees.now w hc) hs ((Store.performRollupUptoWithView_const _ _ _ _).trans h)

theorem Step.planImpreciseRollupUpto {safe : Bool} {w : World K V} {q : Name}
    {l : InternalLayer K V} {upto : Name} {pl : Store.Plan K V} {c : Store.Cache K V}
    (hm : (q, l) ∈ w.held) (hc : ∀ n l, c n = some l → w.cache n = some l)
    (hs : safe = true → ∀ e, pl = .write e → ∀ bound,
      w.store.safeUptoBound l upto = .ok bound → bound = upto)
    (h : Store.performImpreciseRollupUpto w.store c l upto = .ok pl) :
    Step safe w { w with plans := (.rollup l.name, pl) :: w.plans, past := w.seen } :=
  .decideImpreciseRollupUpto hm (Sees.now w hc) hs
    ((Store.performRollupUptoWithView_const _ _ _ _).trans h)

theorem Step.planSquashUpto {safe : Bool} {w : World K V} {q : Name} {l : InternalLayer K V}
    {upto : Name} {pl : Store.Plan K V} (hm : (q, l) ∈ w.held)
    (h : w.store.squashUpto l upto = .ok pl) :
    Step safe w { w with plans := (.squashUpto l.name upto, pl) :: w.plans, past := w.seen } :=
  .decideSquashUpto hm (Sees.now w (by intro _ _ h; cases h)) h

/-- The states the world can be in, starting with an empty store. -/
inductive Run (safe : Bool) : World K V → Prop
  | start : Run safe {}
  | step {w w'} : Run safe w → Step safe w w' → Run safe w'

/-- The states that can follow a state. -/
inductive Later (safe : Bool) (w : World K V) : World K V → Prop
  | now : Later safe w w
  | step {w' w''} : Later safe w w' → Step safe w' w'' → Later safe w w''

end World

end Verif
