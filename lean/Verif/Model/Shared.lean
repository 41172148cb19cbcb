import Verif.Model.Life

/-!
Model of a store on disk that several processes use at the same time. Each process has opened the
directory (src/store/mod.rs:914-957): the layers, the rollups and the labels are in files that all
of them see; a cache of layers is in the memory of one process (src/storage/cache.rs:33-45), which
does not notice what others do to the files. The steps of the calls are those of
`Verif/Model/Conc.lean`, taken with the cache of the process that makes the call.

A label is read and written under the lock of its file (src/storage/directory.rs:361-456,
src/storage/locking.rs:38-110), which excludes other processes as well, and is one step. The cache
of archive files (src/storage/archive.rs:361-640) is left out: it has files that do not change, and
asks the directory for rollups (archive.rs:627-629).

A process that has begun later than others is one that has made no step so far, and a process that
is killed is one that makes no further step. When no process is left, others may begin as in
`Verif/Model/Life.lean`. The layers and builders in hand are numbered for all processes together.
-/

namespace Verif.Conc

open Spec SimpleBuilder Store Api

variable {K V L : Type} [LinearOrder K] [LinearOrder V] [DecidableEq L] {N : Nat}

/-- The files and what the program has in hand (the `cache` of `session` is not used), and for each
process the layers in its cache, those that it has loaded, and what it could see so far, newest
first. -/
structure Shared (N : Nat) (K V L : Type) where
  session : Session K V L := { disk := true }
  caches : Fin N → Cache K V := fun _ => noCache
  loaded : Fin N → List (InternalLayer K V) := fun _ => []
  seen : List (Fin N → View K V) := [fun _ => ⟨[], noCache⟩]
  calls : Nat → Option (Stage K V L) := fun _ => none

namespace Shared

/-- The store of one of the processes (src/store/mod.rs:27-31). -/
def shop (S : Shared N K V L) (p : Fin N) : Shop K V L :=
  { session := { S.session with cache := S.caches p }
    loaded := S.loaded p
    seen := S.seen.map (· p)
    calls := S.calls }

/-- The present moment is over. -/
def seeing (S : Shared N K V L) : Shared N K V L :=
  { S with seen := (fun p => ⟨S.session.store, S.caches p⟩) :: S.seen }

/-- The call is at this stage now. -/
def goes (S : Shared N K V L) (t : Nat) (st : Option (Stage K V L)) : Shared N K V L :=
  { S with calls := fun u => if u = t then st else S.calls u }

/-- The cache of one process is now this. -/
def setCache (S : Shared N K V L) (p : Fin N) (c : Cache K V) : Shared N K V L :=
  { S with caches := fun q => if q = p then c else S.caches q }

/-- The files and caches after one step of a call of the process `p`: the caches of the others
stay. -/
def stepped (S : Shared N K V L) (p : Fin N) (t : Nat)
    (r : Stage K V L × Session K V L × List (InternalLayer K V)) : Shared N K V L :=
  (({ S with
      session := { r.2.1 with cache := noCache }
      loaded := fun q => if q = p then r.2.2 ++ S.loaded p else S.loaded q }.setCache p
    r.2.1.cache).goes t (some r.1)).seeing

/-- What can happen next, where the process `proc t` makes the call `t`. -/
inductive Next (proc : Nat → Fin N) :
    Shared N K V L → Option (Conc.Event K V L) → Shared N K V L → Prop
  | inv {S : Shared N K V L} {t c} : S.calls t = none →
      Next proc S (some (.inv t c)) (S.goes t (some (.start c)))
  | act {S : Shared N K V L} {t st ch} : S.calls t = some st →
      ch.Possible (S.shop (proc t)) st →
      Next proc S (some (.act t ch.base.new))
        (S.stepped (proc t) t (advance (S.shop (proc t)) ch st))
  | ret {S : Shared N K V L} {t r ls} : S.calls t = some (.done r ls) →
      Next proc S (some (.ret t (CState.numbered S.session.layers.length r)))
        ({ S with session := { S.session with layers := S.session.layers ++ ls } }.goes t none)
  /-- `cache_layer` (src/storage/cache.rs:71-77). -/
  | cache {S : Shared N K V L} {p l} : l ∈ S.loaded p →
      Next proc S none (S.setCache p ((S.caches p).insert l)).seeing
  /-- Cached layers vanish (src/storage/cache.rs:39-69). -/
  | evict {S : Shared N K V L} {p c} : (∀ n l, c n = some l → S.caches p n = some l) →
      Next proc S none (S.setCache p c).seeing

/-- What can happen from one state to another. -/
inductive Runs (proc : Nat → Fin N) :
    Shared N K V L → List (Conc.Event K V L) → Shared N K V L → Prop
  | nil {S} : Runs proc S [] S
  | cons {S e S' rest T} : Next proc S e S' → Runs proc S' rest T →
      Runs proc S (e.toList ++ rest) T

/-- What can happen from a state on. -/
def Trace (proc : Nat → Fin N) (S : Shared N K V L) (evs : List (Conc.Event K V L)) : Prop :=
  ∃ T, Runs proc S evs T

/-- Some processes open the store (src/store/mod.rs:914-957): what they find are the files. -/
def opened (N : Nat) (s : Session K V L) : Shared N K V L :=
  { session := s, seen := [fun _ => ⟨s.store, noCache⟩] }

/-- The processes work at the same time until all of them have stopped; then others do. How many
they are may be different each time. -/
inductive Lives : Session K V L → List (List (Conc.Event K V L)) → Prop
  | last {N : Nat} {proc : Nat → Fin N} {s evs T} : Runs proc (opened N s) evs T → Lives s [evs]
  | stop {N : Nat} {proc : Nat → Fin N} {s evs T lost rest} : Runs proc (opened N s) evs T →
      ({ session := T.session } : Shop K V L).Leaves lost →
      Lives { store := T.session.store, labels := T.session.labels, disk := T.session.disk,
              lost := lost } rest →
      Lives s (evs :: rest)

end Shared

end Verif.Conc
