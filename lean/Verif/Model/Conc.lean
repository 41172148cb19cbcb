import Verif.Model.Api
import Verif.ConcSpec

/-!
Model of the public interface (src/store/mod.rs) for a program that makes many calls at the same
time: the steps of the calls interleave in any order. A store is that of
`Verif/Model/Api.lean`; a call under way is at a `Stage`.

These are one step each: a call of the label store (it holds the lock, src/storage/memory.rs:79-149,
src/storage/directory.rs:361-456; for `DirectoryLabelStore` that it takes effect at one moment is
C32, and that a graph cannot be read while it is being created is left out);
an operation on a builder under its lock (src/store/mod.rs:66-82); reading the files of layers,
which do not change once they are written, to plan a rollup, squash or merge or to answer a
question about changes; writing all files of a new layer; registering a rollup. A load looks for
the layer, then searches for a cached ancestor in rounds between which other calls go on, then
reads the files (src/storage/layer.rs:1433-1597). Layers that were loaded are put into the cache,
and cached layers vanish, at any time. A call that is dropped between two steps is one that makes
no further step; calls that are dropped while they write files are left out. So is that a rollup
is registered while another call, to plan a rollup or squash, loads a layer or reads the files of the
layers above it (`World` has the loads).
-/

namespace Verif.Conc

open Spec SimpleBuilder Store Api

variable {K V L : Type} [LinearOrder K] [LinearOrder V] [DecidableEq L]

/-- What is to be done with a layer that is loaded. -/
inductive Goal (K V L : Type) where
  /-- Return it, with this answer. -/
  | answer (r : Ans K V L)
  /-- Go on with the call. -/
  | use (c : Req K V L)

/-- How far a call has come. -/
inductive Stage (K V L : Type) where
  | start (c : Req K V L)
  /-- A layer is to be loaded; `missing` is the answer if it is not there. -/
  | fetch (g : Goal K V L) (n : Name) (missing : Ans K V L)
  /-- The layer is there and not cached, and is searched for since the moment `k`
  (src/storage/layer.rs:1449-1597). -/
  | search (g : Goal K V L) (n : Name) (k : Nat)
  /-- The layer that the call is about is loaded. -/
  | holds (c : Req K V L) (l : InternalLayer K V)
  /-- A rollup has found that the layer has a rollup file, which is to be read
  (src/storage/layer.rs:1735-1736, 1769-1770, 1804-1805). -/
  | reading (c : Req K V L) (l : InternalLayer K V)
  /-- `set_head` has read the label and asks whether the old head is an ancestor
  (src/store/mod.rs:743-750). -/
  | asking (c : Req K V L) (l : L) (n : Name) (d : LabelData Name)
  /-- The label is to be set if it has not changed (src/store/mod.rs:752-760, 776-785,
  807-813). -/
  | setting (c : Req K V L) (l : L) (n : Name) (d : LabelData Name)
  /-- A squash or a merge is to write its layer. -/
  | writing (c : Req K V L) (pl : Plan K V)
  /-- A rollup of `n` is to write its layer. -/
  | rolling (c : Req K V L) (n : Name) (pl : Plan K V)
  /-- A rollup is to be registered (src/storage/layer.rs:155-203, 1822-1829). -/
  | written (n r : Name)
  /-- A rollup was registered, and the cached layer is to be removed
  (src/storage/cache.rs:305-312). -/
  | invalidating (n : Name)
  /-- A commit has taken the contents of the builder (src/store/mod.rs:124-150). -/
  | taken (x : HeldBuilder K V) (sb : SimpleBuilder K V) (load : Bool)
  /-- The calls of parallel workers that are still to be made (src/store/mod.rs:173-191, 196-224);
  `strict` if their results are unwrapped. -/
  | applying (b : Nat) (ops : List (Op K V)) (strict : Bool)
  /-- The call is to end with this answer and these layers. -/
  | done (r : Ans K V L) (ls : List (InternalLayer K V))

/-- A store that many calls use (src/store/mod.rs:27-31): what the program has in hand, the layers
that were loaded, what could be seen so far, newest first, and the calls under way. -/
structure Shop (K V L : Type) where
  session : Session K V L := {}
  loaded : List (InternalLayer K V) := []
  seen : List (View K V) := [⟨[], noCache⟩]
  calls : Nat → Option (Stage K V L) := fun _ => none

/-- What the code leaves open in one step of a call: names and orders, and for a load what was
seen in each round, with enough rounds. -/
structure CChoice (K V L : Type) where
  base : Choice K V L
  views : Nat → View K V
  rounds : Nat

namespace Shop

/-- The present moment is over. -/
def seeing (M : Shop K V L) : Shop K V L :=
  { M with seen := ⟨M.session.store, M.session.cache⟩ :: M.seen }

/-- The call is at this stage now. -/
def goes (M : Shop K V L) (t : Nat) (st : Option (Stage K V L)) : Shop K V L :=
  { M with calls := fun u => if u = t then st else M.calls u }

end Shop

/-- A layer is loaded. -/
def land (g : Goal K V L) (l : InternalLayer K V) : Stage K V L :=
  match g with
  | .answer r => .done r [l]
  | .use c => .holds c l

/-- The first look of a load: into the cache, then whether the layer exists
(src/storage/cache.rs:116-120, src/storage/layer.rs:1438-1448). -/
def look (M : Shop K V L) (g : Goal K V L) (n : Name) (missing : Ans K V L) : Stage K V L :=
  match M.session.cache n with
  | some l => land g l
  | none => if M.session.store.has n then .search g n M.seen.length else .done missing []

/-- The rest of a load. -/
def ends (g : Goal K V L) :
    Out (Option (InternalLayer K V) × List (InternalLayer K V)) →
      Stage K V L × List (InternalLayer K V)
  | .ok (some l, cs) => (land g l, cs)
  | .ok (none, cs) => (.done .failed [], cs)
  | .err => (.done .failed [], [])
  | .panic => (.done .panicked [], [])

/-- What was planned is to be written. -/
def planned (next : Plan K V → Stage K V L) : Out (Plan K V) → Stage K V L
  | .ok pl => next pl
  | .err => .done .failed []
  | .panic => .done .panicked []

/-- The layer with this number is to be used. -/
def withLayer (s : Session K V L) (h : Nat) (k : InternalLayer K V → Stage K V L) : Stage K V L :=
  match s.layers[h]? with
  | some l => k l
  | none => .done .invalid []

/-- A call that is one step: the layers it returns are given to the program at its end. -/
def single (s : Session K V L) (r : Ans K V L × Session K V L) : Stage K V L × Session K V L :=
  (.done r.1 (r.2.layers.drop s.layers.length), { r.2 with layers := s.layers })

/-- Read a label, and go on with it (src/store/mod.rs:736-742, 768-774, 797-803). -/
def reading (s : Session K V L) (l : L) (k : LabelData Name → Stage K V L) : Stage K V L :=
  match (labelCall s.disk s.labels (.get l)).1 with
  | .got (some d) => k d
  | _ => .done .failed []

/-- A commit begins (src/store/mod.rs:124-143). -/
def taking (s : Session K V L) (b : Nat) (load : Bool) : Stage K V L × Session K V L :=
  match s.builders[b]? with
  | none => (.done .invalid [], s)
  | some x =>
    match BuilderUse.takeBuilder x.lock with
    | (.inr r, l) => (.done (Session.builderSaid r) [], s.setLock b x l)
    | (.inl sb, l) => (.taken x sb load, s.setLock b x l)

/-- The changes are read (src/store/mod.rs:163-225). -/
def applies (ch : Choice K V L) (b : Nat) (strict : Bool) : Out (List (Op K V)) → Stage K V L
  | .ok ops => .applying b (ch.calls ops) strict
  | .err => .done .failed []
  | .panic => .done .panicked []

/-- The first step of a call. -/
def begins (M : Shop K V L) (ch : Choice K V L) (c : Req K V L) : Stage K V L × Session K V L :=
  let s := M.session
  match c with
  | .head l => (reading s l fun d =>
      match d.layer with
      | none => .done (.head none d.version) []
      | some n => .fetch (.answer (.head (some 0) d.version)) n .failed, s)
  | .setHead l h => (withLayer s h fun x => reading s l fun d =>
      match d.layer with
      | none => .setting c l x.name d
      | some _ => .asking c l x.name d, s)
  | .forceSetHead l h => (withLayer s h fun x => reading s l fun d => .setting c l x.name d, s)
  | .forceSetHeadVersion l h v => (withLayer s h fun x => reading s l fun d =>
      if d.version ≠ v then .done (.flag false) [] else .setting c l x.name d, s)
  | .getLayer n => (look M (.answer (.layer 0)) n .absent, s)
  | .merge ns => (planned (.writing c) (s.store.mergeBase ns), s)
  | .parent h => (withLayer s h fun x =>
      match x.parentName with
      | none => .done .absent []
      | some p => .fetch (.answer (.layer 0)) p .failed, s)
  | .openWrite h | .squash h | .rollup h => (withLayer s h fun x => .fetch (.use c) x.name .failed, s)
  | .squashUpto h u | .rollupUpto h u | .impreciseRollupUpto h u =>
    (withLayer s h fun x => withLayer s u fun _ => .fetch (.use c) x.name .failed, s)
  | .commitNoLoad b => taking s b false
  | .commit b => taking s b true
  | .applyDelta b h => (match s.builders[b]? with
      | none => .done .invalid []
      | some _ => withLayer s h fun d =>
        applies ch b false (Session.deltaCalls ⟨s.store, s.cache⟩ d), s)
  | .applyDiff b h => (match s.builders[b]? with
      | none => .done .invalid []
      | some x => withLayer s h fun o =>
        applies ch b true (Out.ofOption (applyDiffCalls x.below o.stack)), s)
  | c => single s (s.perform ch c)

/-- The layer is loaded, and the call goes on with it. A rollup reads the parent file of the rollup,
if there is one, and the other files that never change (src/storage/layer.rs:1727-1820). -/
def continues (s : Session K V L) (ch : Choice K V L) (c : Req K V L) (l : InternalLayer K V) :
    Stage K V L × Session K V L :=
  match c with
  /- src/store/mod.rs:251-259; src/storage/layer.rs:1711-1725 -/
  | .openWrite h =>
    match s.layers[h]? with
    | none => (.done .invalid [], s)
    | some x =>
      (.done (.builder s.builders.length) [],
        { s with builders :=
            s.builders ++ [⟨ch.new, some (x.name, l), .open (SimpleBuilder.new l.stack)⟩] })
  | .squash _ => (planned (.writing c) (Store.squash l), s)
  | .squashUpto _ u =>
    (withLayer s u fun y => planned (.writing c) (s.store.squashUpto l y.name), s)
  | .rollup _ => (planned (.rolling c l.name) (s.store.performRollup l), s)
  | .rollupUpto _ u =>
    (withLayer s u fun y => planned (.rolling c l.name) (s.store.performRollupUpto s.cache l y.name), s)
  | .impreciseRollupUpto _ u =>
    (withLayer s u fun y =>
      planned (.rolling c l.name) (s.store.performImpreciseRollupUpto noCache l y.name), s)
  | _ => (.done .invalid [], s)

/-- The layers that `rollup_upto` makes when it loads the ancestor, which get into the cache
(src/storage/cache.rs:274-282, 314-317; src/storage/layer.rs:1776-1778). Simplification: also if it then writes
nothing. `imprecise_rollup_upto` loads the ancestor without the cache (src/storage/layer.rs:212-219), and so
does `squash_upto` (src/storage/cache.rs:323-325, src/storage/layer.rs:1963-2063). -/
def underLoads (s : Session K V L) : Req K V L → List (InternalLayer K V)
  | .rollupUpto _ u =>
    match s.layers[u]? with
    | none => []
    | some y =>
      match s.store.getLayer s.cache y.name with
      | .ok (some _, cs) => cs
      | _ => []
  | _ => []

/-- A rollup looks for the rollup file of the layer, and finds it (src/storage/layer.rs:1728-1735,
1758-1769, 1793-1804). -/
def finds (s : Session K V L) (c : Req K V L) (l : InternalLayer K V) : Bool :=
  match c with
  | .rollup _ => l.parentName.isSome && (s.store.rollup? l.name).isSome
  | .rollupUpto _ u | .impreciseRollupUpto _ u =>
    match s.layers[u]? with
    | some y => l.name ≠ y.name && l.parentName ≠ some y.name && (s.store.rollup? l.name).isSome
    | none => false
  | _ => false

/-- Set the label (src/store/mod.rs:752-760, 776-785, 807-813); `force_set_head` starts again
if it has changed. -/
def sets (s : Session K V L) (c : Req K V L) (l : L) (n : Name) (d : LabelData Name) :
    Stage K V L × Session K V L :=
  let r := labelCall s.disk s.labels (.set l d (some n))
  let s' := { s with labels := r.2 }
  match c, r.1 with
  | .forceSetHead _ _, .set (some _) => (.done .done [], s')
  | .forceSetHead _ _, .set none => (.start c, s')
  | _, .set o => (.done (.flag o.isSome) [], s')
  | _, _ => (.done .failed [], s')

/-- One step of a call. -/
def advance (M : Shop K V L) (ch : CChoice K V L) :
    Stage K V L → Stage K V L × Session K V L × List (InternalLayer K V)
  | .start c =>
    let r := begins M ch.base c
    (r.1, r.2, [])
  | .fetch g n missing => (look M g n missing, M.session, [])
  | .search g n _ =>
    let r := ends g (getLayerView ch.views ch.rounds M.session.store n)
    (r.1, M.session, r.2)
  | .holds c l =>
    if finds M.session c l then (.reading c l, M.session, [])
    else
      let r := continues M.session ch.base c l
      (r.1, r.2, underLoads M.session c)
  | .reading c l =>
    match M.session.store.rollup? l.name with
    | none => (.done .failed [], M.session, [])
    | some _ =>
      let r := continues M.session ch.base c l
      (r.1, r.2, underLoads M.session c)
  | .asking c l n d =>
    match d.layer with
    | none => (.setting c l n d, M.session, [])
    | some r =>
      match M.session.store.isAncestor n r with
      | .ok true => (.setting c l n d, M.session, [])
      | .ok false => (.done (.flag false) [], M.session, [])
      | .err => (.done .failed [], M.session, [])
      | .panic => (.done .panicked [], M.session, [])
  | .setting c l n d =>
    let r := sets M.session c l n d
    (r.1, r.2, [])
  | .writing c pl =>
    let q := pl.apply ch.base.new M.session.store
    (match c with
      | .merge _ => .done (.name q.1) []
      | _ => .fetch (.answer (.layer 0)) q.1 .panicked, { M.session with store := q.2 }, [])
  | .rolling _ n pl =>
    let q := pl.apply ch.base.new M.session.store
    (.written n q.1, { M.session with store := q.2 }, [])
  | .written n r =>
    (.invalidating n, { M.session with store := registerRollup M.session.store n r }, [])
  | .invalidating n => (.done .done [], { M.session with cache := M.session.cache.remove n }, [])
  | .taken x sb load =>
    match sb.commitWith (ch.base.nv sb.nvMap) (ch.base.pm sb.pMap) with
    | none => (.done .panicked [], M.session, [])
    | some d =>
      (if load then .fetch (.answer (.layer 0)) x.name .panicked else .done .done [],
        { M.session with
          store := (x.name, { parent := x.on.map Prod.fst, data := d }) :: M.session.store }, [])
  | .applying _ [] _ => (.done .done [], M.session, [])
  | .applying b (op :: ops) strict =>
    match M.session.builders[b]? with
    | none => (.done .invalid [], M.session, [])
    | some x =>
      let r := BuilderUse.withBuilder x.lock op
      (match r.1 with
        | .done => .applying b ops strict
        | .panicked => .done .panicked []
        | _ => if strict then .done .panicked [] else .applying b ops strict,
        M.session.setLock b x r.2, [])
  | .done r ls => (.done r ls, M.session, [])

/-- The choices that can happen in one step of a call at this stage. In a load the rounds come one
after the other, beginning with the look, and go on until the search is at its end. -/
structure CChoice.Possible (ch : CChoice K V L) (M : Shop K V L) (st : Stage K V L) : Prop where
  base : ch.base.Possible M.session
  views : ∀ g n k, st = .search g n k → ∃ i : Nat → Nat, i 0 + k = M.seen.length ∧
    (∀ t, i (t + 1) ≤ i t) ∧ ∀ t, M.seen[i t]? = some (ch.views t)
  rounds : ∀ g n k, st = .search g n k → ∀ f, ch.rounds ≤ f →
    getLayerView ch.views f M.session.store n =
      getLayerView ch.views ch.rounds M.session.store n

/-- The store after one step of a call. -/
def stepped (M : Shop K V L) (t : Nat)
    (r : Stage K V L × Session K V L × List (InternalLayer K V)) : Shop K V L :=
  (({ M with session := r.2.1, loaded := r.2.2 ++ M.loaded }).goes t (some r.1)).seeing

/-- What can happen next. -/
inductive Next : Shop K V L → Option (Conc.Event K V L) → Shop K V L → Prop
  | inv {M : Shop K V L} {t c} : M.calls t = none →
      Next M (some (.inv t c)) (M.goes t (some (.start c)))
  | act {M : Shop K V L} {t st ch} : M.calls t = some st → ch.Possible M st →
      Next M (some (.act t ch.base.new)) (stepped M t (advance M ch st))
  | ret {M : Shop K V L} {t r ls} : M.calls t = some (.done r ls) →
      Next M (some (.ret t (CState.numbered M.session.layers.length r)))
        ({ M with session := { M.session with layers := M.session.layers ++ ls } }.goes t none)
  /-- `cache_layer` (src/storage/cache.rs:71-77). -/
  | cache {M : Shop K V L} {l} : l ∈ M.loaded →
      Next M none ({ M with session := { M.session with cache := M.session.cache.insert l } }.seeing)
  /-- Cached layers vanish (src/storage/cache.rs:39-69). -/
  | evict {M : Shop K V L} {c} : (∀ n l, c n = some l → M.session.cache n = some l) →
      Next M none ({ M with session := { M.session with cache := c } }.seeing)

/-- What can happen from one state to another. -/
inductive Runs : Shop K V L → List (Conc.Event K V L) → Shop K V L → Prop
  | nil {M} : Runs M [] M
  | cons {M e M' rest N} : Next M e M' → Runs M' rest N → Runs M (e.toList ++ rest) N

/-- What can happen from a state on. -/
def Trace (M : Shop K V L) (evs : List (Conc.Event K V L)) : Prop := ∃ N, Runs M evs N

/-- What can happen, where the label of the graph `l` changes `k` times. -/
inductive Turns (l : L) : Shop K V L → List (Conc.Event K V L) → Shop K V L → Nat → Prop
  | nil {M} : Turns l M [] M 0
  | same {M e M' rest N k} : Next M e M' →
      M'.session.labels.get? l = M.session.labels.get? l → Turns l M' rest N k →
      Turns l M (e.toList ++ rest) N k
  | other {M e M' rest N k} : Next M e M' →
      M'.session.labels.get? l ≠ M.session.labels.get? l → Turns l M' rest N k →
      Turns l M (e.toList ++ rest) N (k + 1)

end Verif.Conc
