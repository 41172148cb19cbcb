import Verif.Model.Text

/-!
Model of `ConstructionFile` and `BytesAsyncReader` (src/storage/archive.rs). Every method
holds the lock of the file for its whole length, so it is one step; tasks that share a file
interleave whole steps. A task that panics while it holds the lock is left out: no method
panics.
-/

namespace Verif

/-- `Bytes::split_to(min(remaining, len))`, the common part of the readers: the bytes given
out, and the rest. -/
def splitRead (b : Bytes) (cap : Nat) : Bytes × Bytes :=
  if cap > b.length then (b.take b.length, b.drop b.length) else (b.take cap, b.drop cap)

/-- `BytesAsyncReader::poll_read` (src/storage/archive.rs:78-95): `cap` is the space in the
buffer of the caller. -/
def bytesRead (b : Bytes) (cap : Nat) : Bytes × Bytes := splitRead b cap

/-- `ConstructionFileState` (src/storage/archive.rs:647-651). -/
inductive CFile where
  | underConstruction (b : Bytes)
  | finalizing
  | finalized (b : Bytes)
deriving DecidableEq, Repr

namespace CFile

/-- `ConstructionFile::new` (src/storage/archive.rs:657-661). -/
def new : CFile := .underConstruction []

/-- `ConstructionFile::new_finalized` (src/storage/archive.rs:663-667). -/
def newFinalized (b : Bytes) : CFile := .finalized b

/-- `poll_write` (src/storage/archive.rs:697-714): the number of bytes written. -/
def write (buf : Bytes) : CFile → Out Nat × CFile
  | underConstruction b => (.ok buf.length, underConstruction (b ++ buf))
  | f => (.err, f)

/-- `sync_all` (src/storage/archive.rs:735-752). -/
def sync : CFile → Out Unit × CFile
  | underConstruction b => (.ok (), finalized b)
  | f => (.err, f)

/-- `poll_read` (src/storage/archive.rs:756-778). -/
def read (cap : Nat) : CFile → Out Bytes × CFile
  | finalized b => (.ok (splitRead b cap).1, finalized (splitRead b cap).2)
  | f => (.err, f)

/-- `FileLoad::exists` (src/storage/archive.rs:785-788). -/
def «exists» : CFile → Bool
  | finalized _ => true
  | _ => false

/-- `FileLoad::size` (src/storage/archive.rs:789-798). -/
def size : CFile → Out Nat
  | finalized b => .ok b.length
  | _ => .err

/-- `open_read_from` (src/storage/archive.rs:800-823): the reader is a file of its own. -/
def openReadFrom (offset : Nat) : CFile → Out CFile
  | finalized b => if b.length < offset then .err else .ok (finalized (b.drop offset))
  | _ => .err

/-- `FileLoad::map` (src/storage/archive.rs:825-834). -/
def map : CFile → Out Bytes
  | finalized b => .ok b
  | _ => .err

/-- A call of one of the methods; `flush` and `shutdown` do nothing
(src/storage/archive.rs:716-731). -/
inductive Op where
  | write (buf : Bytes)
  | flush
  | shutdown
  | sync
  | «exists»
  | size
  | openReadFrom (offset : Nat)
  | map
deriving DecidableEq, Repr

/-- What a call returns. -/
inductive Res where
  | wrote (n : Nat)
  | done
  | yes
  | no
  | size (n : Nat)
  | bytes (b : Bytes)
  | reader (r : CFile)
  | failed
  | panicked
deriving DecidableEq, Repr

/-- The result of a call as a `Res`. -/
def res {α : Type} (f : α → Res) : Out α → Res
  | .ok a => f a
  | .err => .failed
  | .panic => .panicked

/-- One call. -/
def step (f : CFile) : Op → Res × CFile
  | .write buf => (res .wrote (f.write buf).1, (f.write buf).2)
  | .flush => (.done, f)
  | .shutdown => (.done, f)
  | .sync => (res (fun _ => .done) f.sync.1, f.sync.2)
  | .exists => (if f.exists then .yes else .no, f)
  | .size => (res .size f.size, f)
  | .openReadFrom offset => (res .reader (f.openReadFrom offset), f)
  | .map => (res .bytes f.map, f)

/-- The file after some calls. -/
def after (f : CFile) : List Op → CFile
  | [] => f
  | op :: ops => (f.step op).2.after ops

/-- Reading from a reader, again and again, with the given buffer sizes: each buffer size with
what was read into it. A failed read ends the list. -/
def reads : CFile → List Nat → List (Nat × Bytes)
  | _, [] => []
  | r, cap :: caps =>
    match r.read cap with
    | (.ok out, r') => (cap, out) :: reads r' caps
    | _ => []

end CFile

/-- The same for a `BytesAsyncReader`. -/
def bytesReads : Bytes → List Nat → List (Nat × Bytes)
  | _, [] => []
  | b, cap :: caps => (cap, (bytesRead b cap).1) :: bytesReads (bytesRead b cap).2 caps

end Verif
