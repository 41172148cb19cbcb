import Verif.LabelSpec

/-!
Model of the label stores: `MemoryLabelStore` (src/storage/memory.rs:79-149),
`DirectoryLabelStore` (src/storage/directory.rs:117-306) and `CachedDirectoryLabelStore`
(src/storage/directory.rs:308-457), each with any number of callers at the same time.
-/

namespace Verif

open Spec

variable {L N : Type} [DecidableEq L]

/-- `with_updated_layer` (src/storage/label.rs:28-34). -/
def LabelData.withUpdatedLayer (l : LabelData N) (layer : Option N) : LabelData N :=
  { layer := layer, version := l.version + 1 }

/-- `new_empty` (src/storage/label.rs:13-19). -/
def LabelData.newEmpty : LabelData N := { layer := none, version := 0 }

/-! ### Hash maps -/

/-- A hash map from names to labels. -/
abbrev LabelMap (L N : Type) := List (L × LabelData N)

namespace LabelMap

/-- `HashMap::get`. -/
def get? : LabelMap L N → L → Option (LabelData N)
  | [], _ => none
  | (k, v) :: m, n => if k = n then some v else get? m n

/-- `HashMap::remove`. -/
def remove (m : LabelMap L N) (n : L) : LabelMap L N := m.filter (fun q => q.1 ≠ n)

/-- `HashMap::insert`. -/
def insert (m : LabelMap L N) (n : L) (l : LabelData N) : LabelMap L N := (n, l) :: m.remove n

end LabelMap

/-! ### The store in memory -/

namespace MemoryLabels

/-- `create_label` (src/storage/memory.rs:97-110). -/
def create (m : LabelMap L N) (n : L) : LabelRes N × LabelMap L N :=
  match m.get? n with
  | some _ => (.exists, m)
  | none => (.created, m.insert n .newEmpty)

/-- `get_label` (src/storage/memory.rs:112-116). -/
def get (m : LabelMap L N) (n : L) : LabelRes N × LabelMap L N := (.got (m.get? n), m)

/-- `set_label_option` (src/storage/memory.rs:118-142): only the versions are compared. -/
def set (m : LabelMap L N) (n : L) (old : LabelData N) (layer : Option N) :
    LabelRes N × LabelMap L N :=
  let new := old.withUpdatedLayer layer
  match m.get? n with
  | none => (.missing, m)
  | some cur =>
    if cur.version + 1 ≠ new.version then (.set none, m)
    else (.set (some new), m.insert n new)

/-- `delete_label` (src/storage/memory.rs:144-148). -/
def delete (m : LabelMap L N) (n : L) : LabelRes N × LabelMap L N :=
  (.deleted (m.get? n).isSome, m.remove n)

/-- A call; each holds the lock of the map from its first access to its last. -/
def call (m : LabelMap L N) : LabelOp L N → LabelRes N × LabelMap L N
  | .create n => create m n
  | .get n => get m n
  | .set n old layer => set m n old layer
  | .delete n => delete m n

/-- `labels` (src/storage/memory.rs:92-95). -/
def labels (m : LabelMap L N) : List (L × LabelData N) := m

end MemoryLabels

/-! ### The stores in directories, without their files -/

namespace DiskLabels

/-- `set_label_option` (src/storage/directory.rs:257-286, 408-443): the whole label is
compared. -/
def set [DecidableEq N] (m : LabelMap L N) (n : L) (old : LabelData N) (layer : Option N) :
    LabelRes N × LabelMap L N :=
  let new := old.withUpdatedLayer layer
  match m.get? n with
  | none => (.missing, m)
  | some cur => if cur = old then (.set (some new), m.insert n new) else (.set none, m)

/-- A call (src/storage/directory.rs:206-305, 361-456). -/
def call [DecidableEq N] (m : LabelMap L N) : LabelOp L N → LabelRes N × LabelMap L N
  | .set n old layer => set m n old layer
  | op => MemoryLabels.call m op

end DiskLabels

/-! ### The cached directory store -/

/-- Writing to a file that is opened without truncating it: the rest of longer old contents
stays. -/
def overwrite (old new : Bytes) : Bytes := new ++ old.drop new.length

/-- `CachedDirectoryLabelStore` (src/storage/directory.rs:317-320) and its files. -/
structure CachedLabels (L : Type) where
  map : LabelMap L LayerName
  files : L → Option Bytes

namespace CachedLabels

/-- Replace a file. -/
def putFile (f : L → Option Bytes) (n : L) (b : Option Bytes) : L → Option Bytes :=
  fun k => if k = n then b else f k

/-- `create_label` (src/storage/directory.rs:368-403). A file that is there although the map
does not know it is an error. -/
def create (s : CachedLabels L) (n : L) : LabelRes LayerName × CachedLabels L :=
  match s.map.get? n with
  | some _ => (.exists, s)
  | none =>
    match s.files n with
    | some _ => (.unreadable, s)
    | none => (.created, ⟨s.map.insert n .newEmpty, putFile s.files n (some (labelFile .newEmpty))⟩)

/-- `get_label` (src/storage/directory.rs:404-407). -/
def get (s : CachedLabels L) (n : L) : LabelRes LayerName × CachedLabels L :=
  (.got (s.map.get? n), s)

/-- `set_label_option` (src/storage/directory.rs:408-443). The file is not truncated; if it is
missing the call fails. -/
def set (s : CachedLabels L) (n : L) (old : LabelData LayerName) (layer : Option LayerName) :
    LabelRes LayerName × CachedLabels L :=
  let new := old.withUpdatedLayer layer
  match s.map.get? n with
  | none => (.missing, s)
  | some cur =>
    if cur = old then
      match s.files n with
      | none => (.unreadable, s)
      | some b =>
        (.set (some new), ⟨s.map.insert n new, putFile s.files n (some (overwrite b (labelFile new)))⟩)
    else (.set none, s)

/-- `delete_label` (src/storage/directory.rs:445-456). The map forgets the label even if the
file is missing. -/
def delete (s : CachedLabels L) (n : L) : LabelRes LayerName × CachedLabels L :=
  match s.map.get? n with
  | none => (.deleted false, s)
  | some _ =>
    match s.files n with
    | none => (.unreadable, ⟨s.map.remove n, s.files⟩)
    | some _ => (.deleted true, ⟨s.map.remove n, putFile s.files n none⟩)

/-- A call; each holds the lock of the map from its first access to its last. -/
def call (s : CachedLabels L) : LabelOp L LayerName → LabelRes LayerName × CachedLabels L
  | .create n => create s n
  | .get n => get s n
  | .set n old layer => set s n old layer
  | .delete n => delete s n

/-- `labels` (src/storage/directory.rs:363-366). -/
def labels (s : CachedLabels L) : List (L × LabelData LayerName) := s.map

/-- `open` (src/storage/directory.rs:327-335) with `get_all_labels_from_dir`
(src/storage/directory.rs:338-358): what is read for each file, or the error that the first
bad file gives. The files are read as `DirectoryLabelStore` reads them. -/
def reopened (s : CachedLabels L) (n : L) : Option (Out (LabelData LayerName)) :=
  (s.files n).map readLabelFile

end CachedLabels

/-! ### Stores whose calls are atomic -/

/-- A store and the calls on it. -/
structure Shared (σ L N : Type) where
  state : σ
  calls : LabelHistory L N := fun _ => none
  now : Nat := 0

/-- Record a call. -/
def putCall (h : LabelHistory L N) (i : Nat) (c : LabelCall L N) : LabelHistory L N :=
  fun k => if k = i then some c else h k

/-- The steps of callers of a store whose calls hold a lock: a call begins; a call gets the
lock, does its work and returns. Versions are numbers that do not overflow here. -/
inductive Shared.Step {σ : Type} (call : σ → LabelOp L N → LabelRes N × σ) :
    Shared σ L N → Shared σ L N → Prop
  | start {s : Shared σ L N} {i : Nat} {op : LabelOp L N} : s.calls i = none →
      Step call s { s with calls := putCall s.calls i ⟨op, s.now, none⟩, now := s.now + 1 }
  | work {s : Shared σ L N} {i : Nat} {c : LabelCall L N} : s.calls i = some c →
      c.answer = none →
      Step call s ⟨(call s.state c.op).2,
        putCall s.calls i { c with answer := some ((call s.state c.op).1, s.now) }, s.now + 1⟩

/-- The states that can be reached from `init`. -/
inductive Shared.Run {σ : Type} (call : σ → LabelOp L N → LabelRes N × σ) (init : σ) :
    Shared σ L N → Prop
  | start : Run call init ⟨init, fun _ => none, 0⟩
  | step {s s' : Shared σ L N} : Run call init s → Shared.Step call s s' → Run call init s'

/-! ### The directory store -/

/-- Where a call on the directory store is. -/
inductive Phase where
  /-- Nothing is done yet. -/
  | begun
  /-- The file is open (src/storage/locking.rs:87-105, 187-204). -/
  | opened (inode : Nat)
  /-- `create_label` has seen that there is no file (src/storage/directory.rs:226-232). -/
  | checked
  /-- `create_label` has made the file (src/storage/locking.rs:167-185). -/
  | made (inode : Nat)
  /-- The call has returned. -/
  | done
deriving DecidableEq

/-- The directory, the contents of files (which stay while a file is open even if its name is
gone), the calls and where they are. -/
structure DirLabels (L : Type) where
  dir : L → Option Nat := fun _ => none
  data : Nat → Bytes := fun _ => []
  next : Nat := 0
  calls : LabelHistory L LayerName := fun _ => none
  phase : Nat → Phase := fun _ => .begun
  now : Nat := 0

namespace DirLabels

/-- Set the value of a function at one point. -/
def upd {α β : Type} [DecidableEq α] (f : α → β) (a : α) (b : β) : α → β :=
  fun x => if x = a then b else f x

/-- A call goes on to another phase. -/
def goto (s : DirLabels L) (i : Nat) (p : Phase) : DirLabels L :=
  { s with phase := upd s.phase i p, now := s.now + 1 }

/-- A call returns. -/
def answer (s : DirLabels L) (i : Nat) (c : LabelCall L LayerName) (r : LabelRes LayerName) :
    DirLabels L :=
  { s with calls := putCall s.calls i { c with answer := some (r, s.now) }
           phase := upd s.phase i .done
           now := s.now + 1 }

/-- What `get_label` returns after reading the file (src/storage/directory.rs:245-256). -/
def readResult (b : Bytes) : LabelRes LayerName :=
  match readLabelFile b with
  | .ok l => .got (some l)
  | _ => .unreadable

/-- What `set_label_option` returns after reading the file, and the new contents
(src/storage/directory.rs:263-284). -/
def setResult (b : Bytes) (old : LabelData LayerName) (layer : Option LayerName) :
    LabelRes LayerName × Bytes :=
  match readLabelFile b with
  | .ok l =>
    if l = old then
      (.set (some (old.withUpdatedLayer layer)), labelFile (old.withUpdatedLayer layer))
    else (.set none, b)
  | _ => (.unreadable, b)

/-- The steps of the callers. The part of a call in which it holds the lock of its file is one
step. Versions are taken not to overflow. -/
inductive Step : DirLabels L → DirLabels L → Prop
  /-- A call begins. -/
  | start {s : DirLabels L} {i : Nat} {op : LabelOp L LayerName} : s.calls i = none →
      (∀ n old layer, op = .set n old layer → old.version + 1 < 2 ^ 64) →
      Step s { s with calls := putCall s.calls i ⟨op, s.now, none⟩
                      phase := upd s.phase i .begun
                      now := s.now + 1 }
  /-- `get_label` or `set_label_option` opens the file (src/storage/directory.rs:175, 188). -/
  | openFile {s : DirLabels L} {i inode : Nat} {c : LabelCall L LayerName} : s.calls i = some c →
      s.phase i = .begun → ((∃ n, c.op = .get n) ∨ ∃ n old layer, c.op = .set n old layer) →
      s.dir c.op.name = some inode → Step s (s.goto i (.opened inode))
  /-- `get_label` does not find the file (src/storage/directory.rs:252). -/
  | getMissing {s : DirLabels L} {i : Nat} {c : LabelCall L LayerName} {n : L} : s.calls i = some c →
      s.phase i = .begun → c.op = .get n → s.dir n = none → Step s (s.answer i c (.got none))
  /-- `get_label` reads the file (src/storage/directory.rs:175-179, 249-255). -/
  | read {s : DirLabels L} {i inode : Nat} {c : LabelCall L LayerName} {n : L} :
      s.calls i = some c → s.phase i = .opened inode → c.op = .get n →
      Step s (s.answer i c (readResult (s.data inode)))
  /-- `set_label_option` does not find the file (src/storage/directory.rs:188, 273). -/
  | setMissing {s : DirLabels L} {i : Nat} {c : LabelCall L LayerName} {n : L}
      {old : LabelData LayerName} {layer : Option LayerName} : s.calls i = some c →
      s.phase i = .begun → c.op = .set n old layer → s.dir n = none →
      Step s (s.answer i c .missing)
  /-- `set_label_option` reads, compares and perhaps writes the file
  (src/storage/directory.rs:189-195, 273-283). -/
  | write {s : DirLabels L} {i inode : Nat} {c : LabelCall L LayerName} {n : L}
      {old : LabelData LayerName} {layer : Option LayerName} : s.calls i = some c →
      s.phase i = .opened inode → c.op = .set n old layer →
      Step s ({ s with data := upd s.data inode (setResult (s.data inode) old layer).2 }.answer i c
        (setResult (s.data inode) old layer).1)
  /-- `create_label` finds that there is no file (src/storage/directory.rs:226, 231-232). -/
  | check {s : DirLabels L} {i : Nat} {c : LabelCall L LayerName} {n : L} : s.calls i = some c →
      s.phase i = .begun → c.op = .create n → s.dir n = none → Step s (s.goto i .checked)
  /-- `create_label` finds a file, by its check or when it tries to make a new one
  (src/storage/directory.rs:227-230, 233; src/storage/locking.rs:168-173). -/
  | createExists {s : DirLabels L} {i inode : Nat} {c : LabelCall L LayerName} {n : L} :
      s.calls i = some c → s.phase i = .begun ∨ s.phase i = .checked → c.op = .create n →
      s.dir n = some inode → Step s (s.answer i c .exists)
  /-- `create_label` makes an empty file (src/storage/locking.rs:168-173). -/
  | make {s : DirLabels L} {i : Nat} {c : LabelCall L LayerName} {n : L} : s.calls i = some c →
      s.phase i = .checked → c.op = .create n → s.dir n = none →
      Step s ({ s with dir := upd s.dir n (some s.next)
                       data := upd s.data s.next []
                       next := s.next + 1 }.goto i (.made s.next))
  /-- `create_label` writes the file (src/storage/directory.rs:234-238). -/
  | fill {s : DirLabels L} {i inode : Nat} {c : LabelCall L LayerName} {n : L} :
      s.calls i = some c → s.phase i = .made inode → c.op = .create n →
      Step s ({ s with data := upd s.data inode (labelFile .newEmpty) }.answer i c .created)
  /-- `delete_label` (src/storage/directory.rs:286-306). -/
  | unlink {s : DirLabels L} {i : Nat} {c : LabelCall L LayerName} {n : L} : s.calls i = some c →
      s.phase i = .begun → c.op = .delete n →
      Step s ({ s with dir := upd s.dir n none }.answer i c (.deleted (s.dir n).isSome))

/-- `labels` (src/storage/directory.rs:200-220) when `read_dir` lists the files of `ns`: each is
read, a file that is gone by then or cannot be read makes the call fail. All files of the
directory are taken to be label files; that the names are found again is `fileStem_label` in
`Verif/Lemmas/LabelFile.lean`. -/
def labelsOf (s : DirLabels L) : List L → Out (List (L × LabelData LayerName))
  | [] => .ok []
  | n :: ns =>
    match s.dir n with
    | none => .err
    | some i => do
      let l ← readLabelFile (s.data i)
      let r ← labelsOf s ns
      return (n, l) :: r

/-- The states that can be reached from an empty directory. -/
inductive Run : DirLabels L → Prop
  | start : Run {}
  | step {s s' : DirLabels L} : Run s → Step s s' → Run s'

end DirLabels

/-! ### File names -/

/-- `format!("{}.label", name)` (src/storage/directory.rs:224, 247, 272, 288). -/
def labelFileName (n : Text) : Text := n ++ [46, 108, 97, 98, 101, 108]

/-- Split at the last dot: what is before and after it. -/
def splitDot : Text → Option (Text × Text)
  | [] => none
  | c :: t =>
    match splitDot t with
    | some (a, b) => some (c :: a, b)
    | none => if c = 46 then some ([], t) else none

/-- `Path::file_stem` of a file name without separators: a name whose only dot comes first has
no extension, and neither has `..`. -/
def fileStem (f : Text) : Text :=
  if f = [46, 46] then f
  else
    match splitDot f with
    | none => f
    | some ([], _) => f
    | some (a, _) => a

/-- `get_label_from_file` (src/storage/directory.rs:171-180): the label gets its name from the
file. -/
def readNamedLabel (n : Text) (b : Bytes) : Out (Text × LabelData LayerName) := do
  let l ← readLabelFile b
  return (fileStem (labelFileName n), l)

/-- The comparison in `set_label_option` (src/storage/directory.rs:271-284), names included:
`none` if another label was found, else the new contents. -/
def setNamedLabel (b : Bytes) (label : Text × LabelData LayerName) (layer : Option LayerName) :
    Out (Option Bytes) := do
  let retrieved ← readNamedLabel label.1 b
  if retrieved = label then return some (labelFile (label.2.withUpdatedLayer layer))
  else return none

/-! ### Crashes -/

/-- What may be in the file if the process stops during `set_label_option` of the directory
store (src/storage/directory.rs:276-279): the old contents, or, once the file is truncated,
the beginning of the new contents. Writes are taken to reach the disk in order. -/
inductive DirCrash (old new : Bytes) : Bytes → Prop
  | before : DirCrash old new old
  | written (k : Nat) : DirCrash old new (new.take k)

/-- What may be in the file if the process stops during `set_label_option` of the cached store
(src/storage/directory.rs:427-433): the beginning of the new contents, then the old ones. -/
inductive CachedCrash (old new : Bytes) : Bytes → Prop
  | written (k : Nat) : CachedCrash old new (overwrite old (new.take k))

end Verif
