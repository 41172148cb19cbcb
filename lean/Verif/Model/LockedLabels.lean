import Verif.Model.LabelStore

/-!
`DirectoryLabelStore` (src/storage/directory.rs:117-306) on the file locks of
src/storage/locking.rs, one system call at a time: opening, locking, reading and writing parts of
a file, truncating, unlocking, and dropping the futures of calls. In `Verif/Model/LabelStore.lean` all that a call does while it
holds the lock is one step; here it is many, and other calls go on in between.
-/

namespace Verif

open Spec

variable {L : Type} [DecidableEq L]

namespace LockedLabels

/-- Where a call is. Numbers of files are inodes. -/
inductive Phase where
  /-- Nothing is done yet. -/
  | begun
  /-- `create_label` has seen that there is no file (src/storage/directory.rs:226-232). -/
  | checked
  /-- The file is open, the call waits for the lock (src/storage/locking.rs:87-100, 187-198). -/
  | waiting (inode : Nat)
  /-- `create_label` has made the file and waits for the lock
  (src/storage/locking.rs:168-179). -/
  | made (inode : Nat)
  /-- `read_to_end` has got these bytes (src/storage/directory.rs:177, 190). -/
  | reading (inode : Nat) (got : Bytes)
  /-- `set_label_option` has found the label that it is to replace
  (src/storage/directory.rs:192-193, 274-275). -/
  | truncating (inode : Nat)
  /-- `write_all` has yet to write `rest` from `pos` on; then `r` is returned
  (src/storage/directory.rs:234-236, 277-279). -/
  | writing (inode pos : Nat) (rest : Bytes) (r : LabelRes LayerName)
  /-- The call is going to drop its file, which unlocks it (src/storage/locking.rs:149-160,
  276-287). -/
  | unlocking (inode : Nat) (r : LabelRes LayerName)
  /-- The file is dropped. -/
  | returning (r : LabelRes LayerName)
  /-- The call has returned. -/
  | done
  /-- The future of the call was dropped. -/
  | dropped
deriving DecidableEq

end LockedLabels

/-- The directory, the contents of files, who holds their locks, the calls and where they
are. -/
structure LockedLabels (L : Type) where
  dir : L → Option Nat := fun _ => none
  data : Nat → Bytes := fun _ => []
  next : Nat := 0
  /-- The calls that have a shared lock of the file. -/
  shared : Nat → List Nat := fun _ => []
  /-- The call that has the exclusive lock of the file. -/
  exclusive : Nat → Option Nat := fun _ => none
  calls : LabelHistory L LayerName := fun _ => none
  phase : Nat → LockedLabels.Phase := fun _ => .begun
  now : Nat := 0

namespace LockedLabels

open DirLabels (upd readResult)

/-- A call goes on to another phase. -/
def goto (s : LockedLabels L) (i : Nat) (p : Phase) : LockedLabels L :=
  { s with phase := upd s.phase i p, now := s.now + 1 }

/-- A call returns. -/
def answer (s : LockedLabels L) (i : Nat) (c : LabelCall L LayerName) (r : LabelRes LayerName) :
    LockedLabels L :=
  { s with calls := putCall s.calls i { c with answer := some (r, s.now) }
           phase := upd s.phase i .done
           now := s.now + 1 }

/-- `lock_shared` and `try_lock_shared` of a file (src/storage/locking.rs:57-60, 95): granted
while nobody has the exclusive lock. -/
def lockShared (s : LockedLabels L) (i inode : Nat) : LockedLabels L :=
  { s with shared := upd s.shared inode (i :: s.shared inode) }

/-- `lock_exclusive` and `try_lock_exclusive` (src/storage/locking.rs:53-55, 176, 195): granted
while nobody has any lock. -/
def lockExclusive (s : LockedLabels L) (i inode : Nat) : LockedLabels L :=
  { s with exclusive := upd s.exclusive inode (some i) }

/-- `unlock` of a call (src/storage/locking.rs:149-160, 276-287). -/
def unlock (s : LockedLabels L) (i inode : Nat) : LockedLabels L :=
  { s with
    shared := upd s.shared inode ((s.shared inode).filter (fun k => k ≠ i))
    exclusive := upd s.exclusive inode
      (if s.exclusive inode = some i then none else s.exclusive inode) }

/-- A file gets other contents. -/
def putData (s : LockedLabels L) (inode : Nat) (b : Bytes) : LockedLabels L :=
  { s with data := upd s.data inode b }

/-- Write bytes at a position; a gap is filled with zeros. -/
def writeAt (old : Bytes) (pos : Nat) (b : Bytes) : Bytes :=
  old.take pos ++ List.replicate (pos - old.length) 0 ++ b ++ old.drop (pos + b.length)

/-- What a read of `k + 1` bytes at most gives at a position. -/
def readAt (b : Bytes) (pos k : Nat) : Bytes := (b.drop pos).take (k + 1)

/-- What call `i` can do next. `rl` is false if the code is built with the feature `noreadlock`
(src/storage/locking.rs:56-61, 94-99). The operating system is taken to read and write parts of a
file in one piece and to grant locks whenever it can. Versions are taken not to overflow. -/
inductive Go (rl : Bool) (i : Nat) : LockedLabels L → LockedLabels L → Prop
  /-- `get_label` or `set_label_option` opens the file (src/storage/directory.rs:175, 188). -/
  | openFile {s : LockedLabels L} {inode : Nat} {c : LabelCall L LayerName} : s.calls i = some c →
      s.phase i = .begun → ((∃ n, c.op = .get n) ∨ ∃ n old layer, c.op = .set n old layer) →
      s.dir c.op.name = some inode → Go rl i s (s.goto i (.waiting inode))
  /-- `get_label` does not find the file (src/storage/directory.rs:252). -/
  | getMissing {s : LockedLabels L} {c : LabelCall L LayerName} {n : L} : s.calls i = some c →
      s.phase i = .begun → c.op = .get n → s.dir n = none → Go rl i s (s.answer i c (.got none))
  /-- `set_label_option` does not find the file (src/storage/directory.rs:188, 273). -/
  | setMissing {s : LockedLabels L} {c : LabelCall L LayerName} {n : L}
      {old : LabelData LayerName} {layer : Option LayerName} : s.calls i = some c →
      s.phase i = .begun → c.op = .set n old layer → s.dir n = none →
      Go rl i s (s.answer i c .missing)
  /-- `get_label` gets the shared lock (src/storage/locking.rs:94-99). -/
  | lockToRead {s : LockedLabels L} {inode : Nat} {c : LabelCall L LayerName} {n : L} :
      rl = true → s.calls i = some c → s.phase i = .waiting inode → c.op = .get n →
      s.exclusive inode = none → Go rl i s ((s.lockShared i inode).goto i (.reading inode []))
  /-- `get_label` goes on without lock. -/
  | doNotLock {s : LockedLabels L} {inode : Nat} {c : LabelCall L LayerName} {n : L} :
      rl = false → s.calls i = some c → s.phase i = .waiting inode → c.op = .get n →
      Go rl i s (s.goto i (.reading inode []))
  /-- `set_label_option` gets the exclusive lock (src/storage/locking.rs:195-198). -/
  | lockToWrite {s : LockedLabels L} {inode : Nat} {c : LabelCall L LayerName} {n : L}
      {old : LabelData LayerName} {layer : Option LayerName} : s.calls i = some c →
      s.phase i = .waiting inode → c.op = .set n old layer → s.exclusive inode = none →
      s.shared inode = [] → Go rl i s ((s.lockExclusive i inode).goto i (.reading inode []))
  /-- `read_to_end` reads some bytes (src/storage/directory.rs:177, 190). -/
  | readSome {s : LockedLabels L} {inode k : Nat} {got : Bytes} : s.phase i = .reading inode got →
      got.length < (s.data inode).length →
      Go rl i s (s.goto i (.reading inode (got ++ readAt (s.data inode) got.length k)))
  /-- `get_label` has come to the end of the file (src/storage/directory.rs:177-179). -/
  | readEnd {s : LockedLabels L} {inode : Nat} {got : Bytes} {c : LabelCall L LayerName} {n : L} :
      s.calls i = some c → s.phase i = .reading inode got → c.op = .get n →
      (s.data inode).length ≤ got.length →
      Go rl i s (s.goto i (.unlocking inode (readResult got)))
  /-- `set_label_option` has read the label that it is to replace
  (src/storage/directory.rs:192-195, 274). -/
  | same {s : LockedLabels L} {inode : Nat} {got : Bytes} {c : LabelCall L LayerName} {n : L}
      {old : LabelData LayerName} {layer : Option LayerName} : s.calls i = some c →
      s.phase i = .reading inode got → c.op = .set n old layer →
      (s.data inode).length ≤ got.length → readLabelFile got = .ok old →
      Go rl i s (s.goto i (.truncating inode))
  /-- `set_label_option` has read another label (src/storage/directory.rs:281-283). -/
  | different {s : LockedLabels L} {inode : Nat} {got : Bytes} {c : LabelCall L LayerName} {n : L}
      {old l : LabelData LayerName} {layer : Option LayerName} : s.calls i = some c →
      s.phase i = .reading inode got → c.op = .set n old layer →
      (s.data inode).length ≤ got.length → readLabelFile got = .ok l → l ≠ old →
      Go rl i s (s.goto i (.unlocking inode (.set none)))
  /-- `set_label_option` cannot read the label (src/storage/directory.rs:192). -/
  | broken {s : LockedLabels L} {inode : Nat} {got : Bytes} {c : LabelCall L LayerName} {n : L}
      {old : LabelData LayerName} {layer : Option LayerName} : s.calls i = some c →
      s.phase i = .reading inode got → c.op = .set n old layer →
      (s.data inode).length ≤ got.length → (∀ l, readLabelFile got ≠ .ok l) →
      Go rl i s (s.goto i (.unlocking inode .unreadable))
  /-- `set_label_option` truncates the file at position 0 (src/storage/directory.rs:193, 276;
  src/storage/locking.rs:213-220). -/
  | truncate {s : LockedLabels L} {inode : Nat} {c : LabelCall L LayerName} {n : L}
      {old : LabelData LayerName} {layer : Option LayerName} : s.calls i = some c →
      s.phase i = .truncating inode → c.op = .set n old layer →
      Go rl i s ((s.putData inode []).goto i
        (.writing inode 0 (labelFile (old.withUpdatedLayer layer))
          (.set (some (old.withUpdatedLayer layer)))))
  /-- `write_all` writes some bytes (src/storage/directory.rs:234, 277). -/
  | writeSome {s : LockedLabels L} {inode pos k : Nat} {rest : Bytes} {r : LabelRes LayerName} :
      s.phase i = .writing inode pos rest r → rest ≠ [] →
      Go rl i s ((s.putData inode (writeAt (s.data inode) pos (rest.take (k + 1)))).goto i
        (.writing inode (pos + (rest.take (k + 1)).length) (rest.drop (k + 1)) r))
  /-- Everything is written (src/storage/directory.rs:235-238, 278-280). -/
  | writeEnd {s : LockedLabels L} {inode pos : Nat} {r : LabelRes LayerName} :
      s.phase i = .writing inode pos [] r → Go rl i s (s.goto i (.unlocking inode r))
  /-- The file is dropped. -/
  | unlock {s : LockedLabels L} {inode : Nat} {r : LabelRes LayerName} :
      s.phase i = .unlocking inode r → Go rl i s ((s.unlock i inode).goto i (.returning r))
  /-- The call returns. -/
  | finish {s : LockedLabels L} {c : LabelCall L LayerName} {r : LabelRes LayerName} :
      s.calls i = some c → s.phase i = .returning r → Go rl i s (s.answer i c r)
  /-- `create_label` finds that there is no file (src/storage/directory.rs:226, 231-232). -/
  | check {s : LockedLabels L} {c : LabelCall L LayerName} {n : L} : s.calls i = some c →
      s.phase i = .begun → c.op = .create n → s.dir n = none → Go rl i s (s.goto i .checked)
  /-- `create_label` finds a file, by its check or when it tries to make a new one
  (src/storage/directory.rs:227-230, 233; src/storage/locking.rs:168-173). -/
  | createExists {s : LockedLabels L} {inode : Nat} {c : LabelCall L LayerName} {n : L} :
      s.calls i = some c → s.phase i = .begun ∨ s.phase i = .checked → c.op = .create n →
      s.dir n = some inode → Go rl i s (s.answer i c .exists)
  /-- `create_label` makes an empty file (src/storage/locking.rs:168-173). -/
  | make {s : LockedLabels L} {c : LabelCall L LayerName} {n : L} : s.calls i = some c →
      s.phase i = .checked → c.op = .create n → s.dir n = none →
      Go rl i s ({ s with dir := upd s.dir n (some s.next)
                          data := upd s.data s.next []
                          next := s.next + 1 }.goto i (.made s.next))
  /-- `create_label` gets the exclusive lock (src/storage/locking.rs:176-179). -/
  | lockMade {s : LockedLabels L} {inode : Nat} : s.phase i = .made inode →
      s.exclusive inode = none → s.shared inode = [] →
      Go rl i s ((s.lockExclusive i inode).goto i
        (.writing inode 0 (labelFile .newEmpty) .created))
  /-- `delete_label` does not lock (src/storage/directory.rs:286-306). -/
  | unlink {s : LockedLabels L} {c : LabelCall L LayerName} {n : L} : s.calls i = some c →
      s.phase i = .begun → c.op = .delete n →
      Go rl i s ({ s with dir := upd s.dir n none }.answer i c (.deleted (s.dir n).isSome))

/-- The future of a call is dropped, which closes its file and so gives back the lock
(src/storage/locking.rs:149-160, 276-287). What the code has asked the operating system for, also
the lock that it waits for (src/storage/locking.rs:37-71), is done nevertheless, in another thread:
such a call is one that is dropped after that. If it is a read or a write, then `drop` panics
because the file is in use (src/storage/locking.rs:154-155, 281-282), which is left out; the file
is closed also then. -/
def drop (s : LockedLabels L) (i : Nat) : LockedLabels L :=
  { s with
    shared := fun x => (s.shared x).filter (fun k => k ≠ i)
    exclusive := fun x => if s.exclusive x = some i then none else s.exclusive x
    phase := upd s.phase i .dropped
    now := s.now + 1 }

/-- A call begins, or goes on, or is dropped, if it is in a phase in which it may be. -/
inductive Step (rl : Bool) (drops : Phase → Bool) : LockedLabels L → LockedLabels L → Prop
  | start {s : LockedLabels L} {i : Nat} {op : LabelOp L LayerName} : s.calls i = none →
      (∀ n old layer, op = .set n old layer → old.version + 1 < 2 ^ 64) →
      Step rl drops s { s with calls := putCall s.calls i ⟨op, s.now, none⟩
                               phase := upd s.phase i .begun
                               now := s.now + 1 }
  | go {s s' : LockedLabels L} {i : Nat} : Go rl i s s' → Step rl drops s s'
  | drop {s : LockedLabels L} {i : Nat} {c : LabelCall L LayerName} : s.calls i = some c →
      c.answer = none → drops (s.phase i) = true → Step rl drops s (s.drop i)
  /-- `delete_label` is dropped after it has asked for the file to be removed
  (src/storage/directory.rs:299). -/
  | dropDelete {s : LockedLabels L} {i : Nat} {c : LabelCall L LayerName} {n : L} :
      s.calls i = some c → s.phase i = .begun → c.op = .delete n → drops .begun = true →
      Step rl drops s ({ s with dir := upd s.dir n none }.goto i .dropped)

/-- The states that can be reached from an empty directory. -/
inductive Run (rl : Bool) (drops : Phase → Bool) : LockedLabels L → Prop
  | start : Run rl drops {}
  | step {s s' : LockedLabels L} : Run rl drops s → Step rl drops s s' → Run rl drops s'

/-- The execution goes on. -/
inductive Later (rl : Bool) (drops : Phase → Bool) (s : LockedLabels L) : LockedLabels L → Prop
  | now : Later rl drops s s
  | step {s1 s2 : LockedLabels L} : Later rl drops s s1 → Step rl drops s1 s2 → Later rl drops s s2

/-- No call is dropped. -/
def noDrops : Phase → Bool := fun _ => false

/-- Calls are dropped at any time, but not between making or truncating a file and the end of
writing it. -/
def dropsWhole : Phase → Bool
  | .made _ | .writing _ _ _ _ => false
  | _ => true

/-- Calls are dropped at any time. -/
def allDrops : Phase → Bool := fun _ => true

end LockedLabels

end Verif
