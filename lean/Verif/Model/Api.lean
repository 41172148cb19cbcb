import Verif.ApiSpec
import Verif.Model.Named
import Verif.Model.StoreBuilder
import Verif.Model.StoreMerge
import Verif.Model.Getters

/-!
Model of the public interface (src/store/mod.rs) for one program that makes one call after the
other: `Store`, `NamedGraph`, `StoreLayer` and `StoreLayerBuilder` on top of a
`CachedLayerStore` with a `LockingHashMapLayerCache`, as `open_memory_store`
(src/store/mod.rs:907-912), `open_archive_store`, `open_raw_archive_store` and
`open_directory_store` (src/store/mod.rs:914-957) put them together. Layers in hand and builders
are numbered in the order in which they were made; none is given back. Export and import are left out (see
`Verif/Model/Pack.lean`), so are the counts of additions and removals of a whole stack, which
depend on the rollups that a layer was loaded with, and the comparison of two layers in hand. The blocking interface (src/store/sync.rs:36-635) calls the
functions of the same name and waits for them (`task_sync`, src/store/sync.rs:26-34), so this is
also a model of it.

Everything that the code does not fix is in `Choice`: the names of new layers, the orders in
which hash maps and parallel workers run, and which cached layers have vanished.
-/

namespace Verif.Api

open Spec SimpleBuilder Store

variable {K V L : Type} [LinearOrder K] [LinearOrder V] [DecidableEq L]

/-- `StoreLayerBuilder` (src/store/mod.rs:37-43): the name of its layer, the layer it is on with
the name that goes into the parent file, and the lock. -/
structure HeldBuilder (K V : Type) where
  name : Name
  on : Option (Name × InternalLayer K V)
  lock : BuilderLock K V

/-- The layers below a builder. -/
def HeldBuilder.below (b : HeldBuilder K V) : List (LayerData K V) :=
  match b.on with
  | none => []
  | some q => q.2.stack

/-- A store (src/store/mod.rs:27-31) and what the program has in hand. -/
structure Session (K V L : Type) where
  store : Store K V := []
  cache : Store.Cache K V := Store.noCache
  labels : LabelMap L Name := []
  layers : List (InternalLayer K V) := []
  builders : List (HeldBuilder K V) := []
  /-- The labels are in files and not in memory. -/
  disk : Bool := false
  /-- The names of directories that were left without a layer when a process stopped. -/
  lost : List Name := []

/-- A call of the label store (src/storage/memory.rs:79-149, src/storage/directory.rs:117-457). -/
def labelCall (disk : Bool) (m : LabelMap L Name) (op : LabelOp L Name) :
    LabelRes Name × LabelMap L Name :=
  if disk then DiskLabels.call m op else MemoryLabels.call m op

/-- What the code leaves open in one call. -/
structure Choice (K V L : Type) where
  /-- The name of the layer that is made (src/storage/directory.rs:47-53). -/
  new : Name
  /-- The order of the map of nodes and values (src/layer/simple_builder.rs:316-342). -/
  nv : List (Obj K V × Nat) → List (Obj K V × Nat)
  /-- The order of the map of predicates. -/
  pm : List (K × Nat) → List (K × Nat)
  /-- The order in which parallel workers call a builder (src/store/mod.rs:173-189, 196-222). -/
  calls : List (Op K V) → List (Op K V)
  /-- The order of the map of labels (src/storage/memory.rs:92-95). -/
  labels : List L → List L
  /-- The cached layers that are still there at the beginning. -/
  keep : Store.Cache K V → Store.Cache K V
  /-- The cached layers that are still there before the second load. -/
  keep2 : Store.Cache K V → Store.Cache K V

/-- The choices that can happen: the name is new, orders are orders of the same things, and
only layers that were cached are found in the cache. -/
structure Choice.Possible (ch : Choice K V L) (s : Session K V L) : Prop where
  new : s.store.get? ch.new = none ∧ ∀ b ∈ s.builders, b.name ≠ ch.new
  nv : ∀ l, (ch.nv l).Perm l
  pm : ∀ l, (ch.pm l).Perm l
  calls : ∀ l, (ch.calls l).Perm l
  labels : ∀ l, (ch.labels l).Perm l
  keep : ∀ c n l, ch.keep c n = some l → c n = some l
  keep2 : ∀ c n l, ch.keep2 c n = some l → c n = some l
  lost : ch.new ∉ s.lost

namespace Session

/-- `get_layer` of the cached store (src/storage/cache.rs:116-120): the loaded layers are put
into the cache. -/
def load (s : Session K V L) (n : Name) : Out (Option (InternalLayer K V)) × Session K V L :=
  match s.store.getLayer s.cache n with
  | .ok (r, cs) => (.ok r, { s with cache := cs.foldl Cache.insert s.cache })
  | .err => (.err, s)
  | .panic => (.panic, s)

/-- Load a layer and go on with it; `missing` is the answer if there is none. -/
def loading (s : Session K V L) (n : Name) (missing : Ans K V L)
    (k : InternalLayer K V → Session K V L → Ans K V L × Session K V L) :
    Ans K V L × Session K V L :=
  match s.load n with
  | (.ok (some l), s') => k l s'
  | (.ok none, s') => (missing, s')
  | (.err, s') => (.failed, s')
  | (.panic, s') => (.panicked, s')

/-- The layer is returned to the program. -/
def give (l : InternalLayer K V) (s : Session K V L) : Ans K V L × Session K V L :=
  (.layer s.layers.length, { s with layers := s.layers ++ [l] })

/-- Use a layer in hand. -/
def withLayer (s : Session K V L) (h : Nat)
    (k : InternalLayer K V → Ans K V L × Session K V L) : Ans K V L × Session K V L :=
  match s.layers[h]? with
  | some l => k l
  | none => (.invalid, s)

/-- Use a builder. -/
def withBuilder (s : Session K V L) (b : Nat)
    (k : HeldBuilder K V → Ans K V L × Session K V L) : Ans K V L × Session K V L :=
  match s.builders[b]? with
  | some x => k x
  | none => (.invalid, s)

/-- An answer from a result. -/
def said {α : Type} (f : α → Ans K V L) : Out α → Ans K V L
  | .ok a => f a
  | .err => .failed
  | .panic => .panicked

/-! ### Named graphs -/

/-- Run a program on the label store. -/
def runProg {α : Type} (disk : Bool) (anc : Name → Name → Out Bool) :
    Prog L Name α → LabelMap L Name → Out α × LabelMap L Name
  | .ret a, m => (a, m)
  | .call op k, m =>
    let r := labelCall disk m op
    runProg disk anc (k r.1) r.2
  | .ask d a k, m => runProg disk anc (k (anc d a)) m

/-- A call on a named graph. -/
def graphCall {α : Type} (s : Session K V L) (p : Prog L Name α) (f : α → Ans K V L) :
    Ans K V L × Session K V L :=
  let r := runProg s.disk s.store.isAncestor p s.labels
  (said f r.1, { s with labels := r.2 })

/-- `head_version` (src/store/mod.rs:700-727). -/
def head (s : Session K V L) (l : L) : Ans K V L × Session K V L :=
  match (runProg s.disk s.store.isAncestor (NamedGraph.headVersion l) s.labels).1 with
  | .ok (none, v) => (.head none v, s)
  | .ok (some n, v) =>
    s.loading n .failed fun x s =>
      (.head (some s.layers.length) v, { s with layers := s.layers ++ [x] })
  | .err => (.failed, s)
  | .panic => (.panicked, s)

/-! ### Queries -/

/-- The queries of a layer (src/layer/layer.rs:12-166 with src/layer/internal/mod.rs); a panic
is `none`. -/
def ask (S : List (LayerData K V)) : Query K V → Option (Answer K V)
  | .has t => (Stack.valueTripleExists S t).map .flag
  | .hasId u => (Stack.tripleExists S u).map .flag
  | .toId t => (Stack.valueTripleToId S t).map .ids
  | .toStrings u => (Stack.idTripleToString S u).map .strings
  | .subjectId k => (Stack.nodeId S k).map .id
  | .predicateId k => (Stack.predId S k).map .id
  | .objectId o => (Stack.objectId S o).map .id
  | .idSubject i => (Stack.idSubject S i).map .text
  | .idPredicate i => (Stack.idPredicate S i).map .text
  | .idObject i => (Stack.idObject S i).map .obj
  | .idObjectIsNode i => (Stack.idObjectIsNode S i).map .maybeFlag
  | .nodeAndValueCount => some (.number (Stack.nvCount S))
  | .predicateCount => some (.number (Stack.pCount S))
  | .triples => (Stack.triples S).map .list
  | .triplesS s => (Stack.triplesS S s).map .list
  | .triplesSP s p => (Stack.triplesSP S s p).map .list
  | .triplesP p => (Stack.triplesP S p).map .list
  | .triplesO o => (Stack.triplesO S o).map .list
  | .singleSP s p => (Stack.singleTripleSP S s p).map .ids
  | .tripleCount => (Stack.tripleCount S).map .number
  | .allCounts =>
    let (n, p, v) := Stack.allCounts S
    some (.counts n p v)

/-- The additions of a layer (src/store/mod.rs:367-411, 427-439, 455-468, 485-497, 513-521, 541-549). -/
def askAdditions (v : View K V) (n : Name) : ChangeQuery → Ans K V L
  | .has u => said (.answer ∘ .flag) (v.additionExists n u)
  | .all => said (.answer ∘ .list) (v.additions n)
  | .withS s => said (.answer ∘ .list) (v.additionsS n s)
  | .withSP s p => said (.answer ∘ .list) (v.additionsSP n s p)
  | .withP p => said (.answer ∘ .list) (v.additionsP n p)
  | .withO o => said (.answer ∘ .list) (v.additionsO n o)
  | .count => said (.answer ∘ .number) (v.additionCount n)

/-- The removals of a layer (src/store/mod.rs:383-425, 441-453, 470-483, 499-511, 527-535, 552-558). -/
def askRemovals (v : View K V) (n : Name) : ChangeQuery → Ans K V L
  | .has u => said (.answer ∘ .flag) (v.removalExists n u)
  | .all => said (.answer ∘ .list) (v.removals n)
  | .withS s => said (.answer ∘ .list) (v.removalsS n s)
  | .withSP s p => said (.answer ∘ .list) (v.removalsSP n s p)
  | .withP p => said (.answer ∘ .list) (v.removalsP n p)
  | .withO o => said (.answer ∘ .list) (v.removalsO n o)
  | .count => said (.answer ∘ .number) (v.removalCount n)

/-! ### Rollups, squashes and merges -/

/-- Write the layer of a rollup, register it and invalidate the cached layer
(src/storage/layer.rs:155-203, src/storage/cache.rs:302-309). -/
def register (s : Session K V L) (new : Name) (l : InternalLayer K V) :
    Out (Plan K V) → Ans K V L × Session K V L
  | .ok pl =>
    let q := pl.apply new s.store
    (.done, { s with store := registerRollup q.2 l.name q.1, cache := s.cache.remove l.name })
  | .err => (.failed, s)
  | .panic => (.panicked, s)

/-- Write the layer of a squash and load it (src/store/mod.rs:281-290, 305-310). -/
def squashed (s : Session K V L) (ch : Choice K V L) :
    Out (Plan K V) → Ans K V L × Session K V L
  | .ok pl =>
    let q := pl.apply ch.new s.store
    loading { s with store := q.2, cache := ch.keep2 s.cache } q.1 .panicked give
  | .err => (.failed, s)
  | .panic => (.panicked, s)

/-- Write the layer of a merge (src/storage/layer.rs:2207-2216). -/
def merged (s : Session K V L) (new : Name) : Out (Plan K V) → Ans K V L × Session K V L
  | .ok pl =>
    let q := pl.apply new s.store
    (.name q.1, { s with store := q.2 })
  | .err => (.failed, s)
  | .panic => (.panicked, s)

/-! ### Builders -/

/-- The change that an edit is (src/store/mod.rs:96-114). -/
def toOp : Edit K V → Op K V
  | .addValue t => .addValue t
  | .removeValue t => .removeValue t
  | .addId u => .addId u
  | .removeId u => .removeId u

/-- Put the lock of a builder into its new state. -/
def setLock (s : Session K V L) (b : Nat) (x : HeldBuilder K V) (l : BuilderLock K V) : Session K V L :=
  { s with builders := s.builders.set b { x with lock := l } }

/-- The answer of a builder. -/
def builderSaid : BuilderRes → Ans K V L
  | .done => .done
  | .refused | .failed => .failed
  | .flag b => .flag b
  | .panicked => .panicked

/-- `commit_no_load` (src/store/mod.rs:124-150) followed by `k`. -/
def committing (s : Session K V L) (ch : Choice K V L) (b : Nat) (x : HeldBuilder K V)
    (k : Session K V L → Ans K V L × Session K V L) : Ans K V L × Session K V L :=
  match BuilderUse.takeBuilder x.lock with
  | (.inr r, l) => (builderSaid r, s.setLock b x l)
  | (.inl sb, l) =>
    match sb.commitWith (ch.nv sb.nvMap) (ch.pm sb.pMap) with
    | none => (.panicked, s.setLock b x l)
    | some d =>
      k { s.setLock b x l with
          store := (x.name, { parent := x.on.map Prod.fst, data := d }) :: s.store }

/-- The calls that `apply_delta` makes (src/store/mod.rs:167-192), the changes read through the
cached store. -/
def deltaCalls (v : View K V) (delta : InternalLayer K V) : Out (List (Op K V)) := do
  let adds ← v.additions delta.name
  let rems ← v.removals delta.name
  let a ← Out.ofOption (stringCalls delta.stack .addValue adds)
  let r ← Out.ofOption (stringCalls delta.stack .removeValue rems)
  return a ++ r

/-- Run the calls of parallel workers on a builder (src/store/mod.rs:173-191, 196-224). -/
def applied (s : Session K V L) (ch : Choice K V L) (b : Nat) (x : HeldBuilder K V)
    (run : BuilderLock K V → List (Op K V) → Out Unit × BuilderLock K V) :
    Out (List (Op K V)) → Ans K V L × Session K V L
  | .ok ops =>
    let r := run x.lock (ch.calls ops)
    (said (fun _ => .done) r.1, s.setLock b x r.2)
  | .err => (.failed, s)
  | .panic => (.panicked, s)

/-! ### Calls -/

/-- A call, after some cached layers may have vanished. -/
def perform (s : Session K V L) (ch : Choice K V L) : Req K V L → Ans K V L × Session K V L
  /- src/store/mod.rs:838-841 -/
  | .createGraph l =>
    let r := labelCall s.disk s.labels (.create l)
    (match r.1 with | .created => .done | _ => .failed, { s with labels := r.2 })
  /- src/store/mod.rs:844-847 -/
  | .openGraph l =>
    let r := labelCall s.disk s.labels (.get l)
    (match r.1 with | .got o => .flag o.isSome | _ => .failed, { s with labels := r.2 })
  /- src/store/mod.rs:851-853 -/
  | .deleteGraph l =>
    let r := labelCall s.disk s.labels (.delete l)
    (match r.1 with | .deleted b => .flag b | _ => .failed, { s with labels := r.2 })
  /- src/store/mod.rs:818-820 -/
  | .dropGraph l => s.graphCall (NamedGraph.delete l) (fun _ => .done)
  /- src/store/mod.rs:856-859 -/
  | .graphs => (.labels (ch.labels ((MemoryLabels.labels s.labels).map Prod.fst)), s)
  | .head l => s.head l
  /- src/store/mod.rs:735-763; 766-791; 794-816 -/
  | .setHead l h => s.withLayer h fun x => s.graphCall (NamedGraph.setHead l x.name) .flag
  | .forceSetHead l h =>
    s.withLayer h fun x => s.graphCall (NamedGraph.forceSetHead 2 l x.name) (fun _ => .done)
  | .forceSetHeadVersion l h v =>
    s.withLayer h fun x => s.graphCall (NamedGraph.forceSetHeadVersion l x.name v) .flag
  /- src/store/mod.rs:862-865 -/
  | .getLayer n => s.loading n .absent give
  /- src/store/mod.rs:870-872, 45-55; src/storage/layer.rs:1705-1709 -/
  | .createBase =>
    (.builder s.builders.length,
      { s with builders := s.builders ++ [⟨ch.new, none, .open (SimpleBuilder.new [])⟩] })
  /- src/store/mod.rs:874-880 -/
  | .merge ns => s.merged ch.new (s.store.mergeBase ns)
  /- src/store/mod.rs:251-259; src/storage/layer.rs:1711-1725 -/
  | .openWrite h => s.withLayer h fun x =>
    s.loading x.name .failed fun l s =>
      (.builder s.builders.length,
        { s with builders :=
            s.builders ++ [⟨ch.new, some (x.name, l), .open (SimpleBuilder.new l.stack)⟩] })
  /- src/store/mod.rs:262-275 -/
  | .parent h => s.withLayer h fun x =>
    match x.parentName with
    | none => (.absent, s)
    | some p => s.loading p .failed give
  /- src/store/mod.rs:301-311; 277-291 -/
  | .squash h => s.withLayer h fun x =>
    s.loading x.name .failed fun l s => s.squashed ch (Store.squash l)
  | .squashUpto h u => s.withLayer h fun x => s.withLayer u fun y =>
    s.loading x.name .failed fun l s => s.squashed ch (s.store.squashUpto l y.name)
  /- src/store/mod.rs:320-330; 338-350; 352-364. The layers that `rollup_upto` loads on the
  way are gone from the cache when it is done. -/
  | .rollup h => s.withLayer h fun x =>
    s.loading x.name .failed fun l s => s.register ch.new l (s.store.performRollup l)
  | .rollupUpto h u => s.withLayer h fun x => s.withLayer u fun y =>
    s.loading x.name .failed fun l s =>
      s.register ch.new l (s.store.performRollupUpto (ch.keep2 s.cache) l y.name)
  | .impreciseRollupUpto h u => s.withLayer h fun x => s.withLayer u fun y =>
    s.loading x.name .failed fun l s =>
      s.register ch.new l (s.store.performImpreciseRollupUpto noCache l y.name)
  /- src/store/mod.rs:560-565 -/
  | .stackNames h => s.withLayer h fun x => (said .names (s.store.stackNames x.name), s)
  /- src/store/mod.rs:579-585 -/
  | .layerName h => s.withLayer h fun x => (.name x.name, s)
  | .parentName h => s.withLayer h fun x => (.maybeName x.parentName, s)
  /- src/store/mod.rs:587-680 -/
  | .query h q => s.withLayer h fun x =>
    (match ask x.stack q with
      | some a => .answer a
      | none => .panicked, s)
  | .additions h q => s.withLayer h fun x => (askAdditions ⟨s.store, s.cache⟩ x.name q, s)
  | .removals h q => s.withLayer h fun x => (askRemovals ⟨s.store, s.cache⟩ x.name q, s)
  /- src/store/mod.rs:84-86 -/
  | .builderName b => s.withBuilder b fun x => (.name x.name, s)
  /- src/store/mod.rs:88-93 -/
  | .builderParent b => s.withBuilder b fun x =>
    match x.on with
    | none => (.absent, s)
    | some q => give q.2 s
  /- src/store/mod.rs:66-82, 96-114 -/
  | .edit b e => s.withBuilder b fun x =>
    let r := BuilderUse.withBuilder x.lock (toOp e)
    (builderSaid r.1, s.setLock b x r.2)
  /- src/store/mod.rs:116-121 -/
  | .committed b => s.withBuilder b fun x => (builderSaid (BuilderUse.committed x.lock), s)
  | .commitNoLoad b => s.withBuilder b fun x => s.committing ch b x fun s => (.done, s)
  /- src/store/mod.rs:152-161 -/
  | .commit b => s.withBuilder b fun x => s.committing ch b x fun s =>
    loading { s with cache := ch.keep2 s.cache } x.name .panicked give
  | .applyDelta b h => s.withBuilder b fun x => s.withLayer h fun d =>
    s.applied ch b x runIgnoring (deltaCalls ⟨s.store, s.cache⟩ d)
  | .applyDiff b h => s.withBuilder b fun x => s.withLayer h fun o =>
    s.applied ch b x runUnwrapping (Out.ofOption (applyDiffCalls x.below o.stack))

/-- A call. -/
def call (s : Session K V L) (ch : Choice K V L) (c : Req K V L) : Ans K V L × Session K V L :=
  perform { s with cache := ch.keep s.cache } ch c

/-- The calls that a program can make from a state on, with the answers that it can get. -/
inductive Trace : Session K V L → List (Req K V L × Ans K V L) → Prop
  | nil {s} : Trace s []
  | call {s : Session K V L} {ch : Choice K V L} {c rest} : ch.Possible s →
      Trace (s.call ch c).2 rest → Trace s ((c, (s.call ch c).1) :: rest)

/-- The same, with the name that each call was free to use for a new layer. -/
inductive NamedTrace : Session K V L → List (Req K V L × Ans K V L × Name) → Prop
  | nil {s} : NamedTrace s []
  | call {s : Session K V L} {ch : Choice K V L} {c rest} : ch.Possible s →
      NamedTrace (s.call ch c).2 rest → NamedTrace s ((c, (s.call ch c).1, ch.new) :: rest)

end Session

end Verif.Api
