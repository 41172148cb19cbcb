import Verif.Model.ArchiveDir
import Verif.Model.LockedLabels
import Verif.RollupSpec

/-!
`get_rollup` and `set_rollup` of `DirectoryArchiveBackend` (src/storage/archive.rs:301-340) on the
file locks of src/storage/locking.rs, one system call at a time. In `Verif/Model/ArchiveDir.lean`
each call is one step; here other calls, also those of other processes, go on in between. The lock
is that of the archive of the layer, what is read and written is its rollup file.
-/

namespace Verif

open Spec

namespace LockedRollups

/-- Where a call is. -/
inductive Phase where
  /-- Nothing is done yet. -/
  | begun
  /-- The archive is open, the call waits for its lock (src/storage/locking.rs:87-100,
  187-198). -/
  | waiting
  /-- The call has the lock and has yet to open the rollup file (src/storage/archive.rs:309-311,
  327-333). -/
  | opening
  /-- `read_to_string` has got these bytes (src/storage/archive.rs:312). -/
  | reading (got : Bytes)
  /-- `write_all` has yet to write `rest` from `pos` on (src/storage/archive.rs:335). -/
  | writing (pos : Nat) (rest : Bytes)
  /-- The call is going to drop the lock (src/storage/locking.rs:149-160, 276-287). -/
  | unlocking (r : RollupRes LayerName)
  /-- The lock is dropped. -/
  | returning (r : RollupRes LayerName)
  /-- The call has returned. -/
  | done
  /-- The future of the call was dropped. -/
  | dropped
deriving DecidableEq

end LockedRollups

/-- Which archives there are, the rollup files, who holds the locks, the calls and where they
are. -/
structure LockedRollups where
  layer : LayerName → Bool := fun _ => false
  file : LayerName → Option Bytes := fun _ => none
  /-- The calls that have a shared lock of the archive. -/
  shared : LayerName → List Nat := fun _ => []
  /-- The call that has the exclusive lock of the archive. -/
  exclusive : LayerName → Option Nat := fun _ => none
  calls : Calls (RollupOp LayerName) (RollupRes LayerName) := fun _ => none
  phase : Nat → LockedRollups.Phase := fun _ => .begun
  now : Nat := 0

namespace LockedRollups

open LockedLabels (writeAt readAt)

/-- A function that differs in one place. -/
def upd {α β : Type} [DecidableEq α] (f : α → β) (a : α) (b : β) : α → β :=
  fun x => if x = a then b else f x

/-- A call goes on to another phase. -/
def goto (s : LockedRollups) (i : Nat) (p : Phase) : LockedRollups :=
  { s with phase := upd s.phase i p, now := s.now + 1 }

/-- A call returns. -/
def answer (s : LockedRollups) (i : Nat) (c : TimedCall (RollupOp LayerName) (RollupRes LayerName))
    (r : RollupRes LayerName) : LockedRollups :=
  { s with calls := upd s.calls i (some { c with answer := some (r, s.now) })
           phase := upd s.phase i .done
           now := s.now + 1 }

/-- `lock_shared` and `try_lock_shared` of an archive (src/storage/locking.rs:57-60, 95). -/
def lockShared (s : LockedRollups) (i : Nat) (n : LayerName) : LockedRollups :=
  { s with shared := upd s.shared n (i :: s.shared n) }

/-- `lock_exclusive` and `try_lock_exclusive` (src/storage/locking.rs:53-55, 195). -/
def lockExclusive (s : LockedRollups) (i : Nat) (n : LayerName) : LockedRollups :=
  { s with exclusive := upd s.exclusive n (some i) }

/-- `unlock` of a call (src/storage/locking.rs:149-160, 276-287). -/
def unlock (s : LockedRollups) (i : Nat) (n : LayerName) : LockedRollups :=
  { s with
    shared := upd s.shared n ((s.shared n).filter (fun k => k ≠ i))
    exclusive := upd s.exclusive n
      (if s.exclusive n = some i then none else s.exclusive n) }

/-- A rollup file gets other contents. -/
def putFile (s : LockedRollups) (n : LayerName) (b : Bytes) : LockedRollups :=
  { s with file := upd s.file n (some b) }

/-- What `set_rollup` writes (src/storage/archive.rs:330-333). -/
def data (r : LayerName) : Bytes := [49, 10] ++ nameToString r ++ [10]

/-- What `get_rollup` makes of the contents of the file (src/storage/archive.rs:317-321). -/
def result (b : Bytes) : RollupRes LayerName :=
  match (ArchDir.secondLine (utf8Lossy b)).bind stringToName with
  | .ok r => .got (some r)
  | .err => .unreadable
  | .panic => .panicked

/-- What call `i` does next, if it can; a read or write is of `k + 1` bytes at most. `rl` is false
if the code is built with the feature `noreadlock` (src/storage/locking.rs:56-61, 94-99). The
operating system is taken to read and write parts of a file in one piece and to grant locks whenever
it can. Of `store_layer_file` only the making of the archive is of interest here
(src/storage/archive.rs:173-176). -/
def next (rl : Bool) (s : LockedRollups) (i k : Nat)
    (c : TimedCall (RollupOp LayerName) (RollupRes LayerName)) : Option LockedRollups :=
  match s.phase i, c.op with
  | .begun, .store n => some ({ s with layer := upd s.layer n true }.goto i (.returning .done))
  | .begun, .get n =>
    -- src/storage/archive.rs:303-309
    some (if s.layer n then s.goto i .waiting else s.goto i (.returning (.got none)))
  | .begun, .set n _ =>
    -- src/storage/archive.rs:326-327
    some (if s.layer n then s.goto i .waiting else s.goto i (.returning .missing))
  | .waiting, .get n =>
    -- src/storage/locking.rs:94-99
    if rl then
      if s.exclusive n = none then some ((s.lockShared i n).goto i .opening) else none
    else some (s.goto i .opening)
  | .waiting, .set n _ =>
    -- src/storage/locking.rs:195-198
    if s.exclusive n = none ∧ s.shared n = [] then some ((s.lockExclusive i n).goto i .opening)
    else none
  | .opening, .get n =>
    -- src/storage/archive.rs:311-316
    match s.file n with
    | none => some (s.goto i (.unlocking (.got none)))
    | some _ => some (s.goto i (.reading []))
  | .opening, .set n r =>
    -- src/storage/archive.rs:334: `File::create` truncates
    some ((s.putFile n []).goto i (.writing 0 (data r)))
  | .reading got, .get n =>
    let b := (s.file n).getD []
    if got.length < b.length then some (s.goto i (.reading (got ++ readAt b got.length k)))
    else some (s.goto i (.unlocking (result got)))
  | .writing pos rest, .set n _ =>
    if rest = [] then some (s.goto i (.unlocking .done))
    else some ((s.putFile n (writeAt ((s.file n).getD []) pos (rest.take (k + 1)))).goto i
      (.writing (pos + (rest.take (k + 1)).length) (rest.drop (k + 1))))
  | .unlocking r, op => some ((s.unlock i op.name).goto i (.returning r))
  | .returning r, _ => some (s.answer i c r)
  | _, _ => none

/-- A call goes on. -/
def Go (rl : Bool) (i : Nat) (s s' : LockedRollups) : Prop :=
  ∃ k c, s.calls i = some c ∧ next rl s i k c = some s'

/-- The future of a call is dropped, which drops the lock too. A lock that the call waits for may
in the code be taken for a moment and given back later; that is left out. -/
def drop (s : LockedRollups) (i : Nat) (n : LayerName) : LockedRollups :=
  (s.unlock i n).goto i .dropped

/-- A call begins, or goes on, or is dropped, if it is one of those that may be. -/
inductive Step (rl : Bool) (drops : RollupOp LayerName → Bool) :
    LockedRollups → LockedRollups → Prop
  | start {s : LockedRollups} {i : Nat} {op : RollupOp LayerName} : s.calls i = none →
      Step rl drops s { s with calls := upd s.calls i (some ⟨op, s.now, none⟩)
                               phase := upd s.phase i .begun
                               now := s.now + 1 }
  | go {s s' : LockedRollups} {i : Nat} : Go rl i s s' → Step rl drops s s'
  | drop {s : LockedRollups} {i : Nat} {c : TimedCall (RollupOp LayerName) (RollupRes LayerName)} :
      s.calls i = some c → c.answer = none → drops c.op = true →
      Step rl drops s (s.drop i c.op.name)

/-- The states that can be reached from an empty directory. -/
inductive Run (rl : Bool) (drops : RollupOp LayerName → Bool) : LockedRollups → Prop
  | start : Run rl drops {}
  | step {s s' : LockedRollups} : Run rl drops s → Step rl drops s s' → Run rl drops s'

/-- No call is dropped. -/
def noDrops : RollupOp LayerName → Bool := fun _ => false

/-- Calls that write may not be dropped. -/
def dropsReads : RollupOp LayerName → Bool
  | .set _ _ => false
  | _ => true

end LockedRollups

end Verif
