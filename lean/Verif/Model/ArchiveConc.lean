import Verif.Model.ArchiveStore

/-!
`ArchiveLayerStore` (src/storage/archive.rs:1324-1509) used by several tasks at once. In
`Verif/Model/ArchiveStore.lean` each call is one step. Here a step is what a call does while it holds
the lock of the construction map, so that `create_named_directory`, `get_file` and `finalize` take
two. That lock is a `std::sync::RwLock`: if a task panics while it holds the lock for writing, the
lock is poisoned, and everybody who takes it later panics too (`unwrap`).
-/

namespace Verif

namespace ArchConc

/-- What a call has done so far. -/
inductive Task where
  /-- `create_named_directory` has seen that there is no archive (src/storage/archive.rs:1384). -/
  | creating (n : LayerName)
  /-- `get_file` has seen that the layer is under construction and does not have the file
  (src/storage/archive.rs:1423-1430). -/
  | getting (n : LayerName) (k : FileKind)
  /-- `finalize` has taken the layer out of the map (src/storage/archive.rs:1469-1474). -/
  | finalizing (n : LayerName) (m : List (FileKind × Nat))

/-- The layer of a call. -/
def Task.name : Task → LayerName
  | .creating n | .getting n _ | .finalizing n _ => n

end ArchConc

/-- The store, whether the lock of its map is poisoned, the calls that are under way, and the
number of calls that panicked. -/
structure ArchConc where
  store : ArchStore := {}
  poisoned : Bool := false
  tasks : Nat → Option ArchConc.Task := fun _ => none
  panics : Nat := 0

namespace ArchConc

/-- Set what a task is doing. -/
def setTask (s : ArchConc) (t : Nat) (x : Option Task) : ArchConc :=
  { s with tasks := fun u => if u = t then x else s.tasks u }

/-- A task panics without the lock. -/
def panic (s : ArchConc) (t : Nat) : ArchConc :=
  { s.setTask t none with panics := s.panics + 1 }

/-- A task panics while it holds the lock for writing. -/
def poison (s : ArchConc) (t : Nat) : ArchConc :=
  { s.panic t with poisoned := true }

/-- `HashMap::insert` of a new file, which replaces the one that is there
(src/storage/archive.rs:1433-1434). -/
def insertFile (s : ArchStore) (n : LayerName) (m : List (FileKind × Nat)) (k : FileKind)
    (f : CFile) : ArchStore :=
  { s with heap := s.heap ++ [f] }.setBuilding n
    ((k, s.heap.length) :: m.filter (fun q => q.1 ≠ k))

/-- What `finalize` does once the layer is out of the map (src/storage/archive.rs:1476-1503). Sizes
that cannot be counted are left out, and the archive is written in one step. -/
def storeFiles (c : OffsetCodec) (s : ArchStore) (n : LayerName) (m : List (FileKind × Nat)) :
    ArchStore :=
  { s with disk := s.disk.storeLayerFile n (Archive.encode c (ArchStore.finalizedFiles s.heap m)) }

/-- What callers keep to, at the moment when a call begins (`kept` of `Step`): what the call needs is
there, and no other call on the same layer is under way, except that several files of a layer may
be asked for at once. -/
inductive Begins (s : ArchConc) : Task → Prop
  | creating {n} : s.store.building n = none → s.store.disk.layerExists n = false →
      (∀ t x, s.tasks t = some x → x.name ≠ n) → Begins s (.creating n)
  | getting {n k} : (∀ t x, s.tasks t = some x → x.name = n → ∃ k', x = .getting n k' ∧ k' ≠ k) →
      Begins s (.getting n k)
  | finalizing {n m} : (s.store.building n).isSome →
      (∀ t x, s.tasks t = some x → x.name ≠ n) → Begins s (.finalizing n m)

/-- What callers of `write_bytes` keep to: the layer is under construction, does not have the file,
and no other call is making that file or finalizing the layer. -/
def MayWrite (s : ArchConc) (n : LayerName) (k : FileKind) : Prop :=
  (∃ m, s.store.building n = some m ∧ m.lookup k = none) ∧
    ∀ t x, s.tasks t = some x → x.name = n → ∃ k', x = .getting n k' ∧ k' ≠ k

/-- A step of a task, with what is noted about it, the newest first. If `kept`, callers keep to the
rules of `Begins`. -/
inductive Step (kept : Bool) (c : OffsetCodec) :
    ArchConc → List ArchEvent → ArchConc → List ArchEvent → Prop
  /-- src/storage/archive.rs:1384-1385 -/
  | createCheck {s L t n} : s.tasks t = none → (kept = true → Begins s (.creating n)) →
      s.store.disk.layerExists n = false →
      Step kept c s L (s.setTask t (some (.creating n))) L
  /-- src/storage/archive.rs:1395-1398 -/
  | createExists {s L t n} : s.tasks t = none → (kept = true → Begins s (.creating n)) →
      s.store.disk.layerExists n = true → Step kept c s L (s.panic t) L
  /-- src/storage/archive.rs:1386, 1393-1394 -/
  | createInsert {s L t n} : s.tasks t = some (.creating n) → s.poisoned = false →
      s.store.building n = none →
      Step kept c s L { s.setTask t none with store := s.store.setBuilding n [] } (.created n :: L)
  /-- src/storage/archive.rs:1387-1390 -/
  | createTaken {s L t n} : s.tasks t = some (.creating n) → s.poisoned = false →
      (s.store.building n).isSome → Step kept c s L (s.poison t) L
  /-- `get_file` finds the file, or the layer is not under construction
  (src/storage/archive.rs:1414-1427, 1437-1445). -/
  | getOld {s L n f h} : s.poisoned = false → s.store.getFile n f = .ok (h, s.store) →
      Step kept c s L s L
  /-- src/storage/archive.rs:1423-1430 -/
  | getCheck {s L t n f k m} : s.tasks t = none → (kept = true → Begins s (.getting n k)) →
      FileName.kind f = .ok k → k ≠ FileKind.rollup → s.poisoned = false →
      s.store.building n = some m → m.lookup k = none →
      Step kept c s L (s.setTask t (some (.getting n k))) L
  /-- src/storage/archive.rs:1431-1436 -/
  | getInsert {s L t n k m} : s.tasks t = some (.getting n k) → s.poisoned = false →
      s.store.building n = some m →
      Step kept c s L { s.setTask t none with store := insertFile s.store n m k CFile.new }
        (.opened n k s.store.heap.length :: L)
  /-- src/storage/archive.rs:1431-1432: the layer has been finalized. -/
  | getGone {s L t n k} : s.tasks t = some (.getting n k) → s.poisoned = false →
      s.store.building n = none → Step kept c s L (s.poison t) L
  /-- `write_bytes`, which holds the lock all the time (src/storage/archive.rs:1344-1355). -/
  | writeBytes {s s' L n k b} : (kept = true → MayWrite s n k) → s.poisoned = false →
      s.store.writeBytes n k b = .ok s' →
      Step kept c s L { s with store := s' } (.synced s.store.heap.length ::
        .wrote s.store.heap.length b :: .opened n k s.store.heap.length :: L)
  /-- The layer is not under construction or has the file
  (src/storage/archive.rs:1346-1351). -/
  | writeBytesTaken {s L t n k b} : s.tasks t = none → (kept = true → MayWrite s n k) →
      s.poisoned = false → s.store.writeBytes n k b = .panic → Step kept c s L (s.poison t) L
  /-- Writing to a file that a task has; files have locks of their own. -/
  | write {s s' L h buf m} : s.store.handleWrite h buf = .ok (m, s') →
      Step kept c s L { s with store := s' } (.wrote h buf :: L)
  /-- Syncing a file that a task has. -/
  | sync {s s' L h} : s.store.handleSync h = .ok s' →
      Step kept c s L { s with store := s' } (.synced h :: L)
  /-- src/storage/archive.rs:1469-1474 -/
  | finalizeRemove {s L t n m} : s.tasks t = none → (kept = true → Begins s (.finalizing n m)) →
      s.poisoned = false → s.store.building n = some m →
      Step kept c s L { s.setTask t (some (.finalizing n m)) with
        store := { s.store with constr := s.store.constr.filter (fun q => q.1 ≠ n) } } L
  /-- src/storage/archive.rs:1473: the layer is not under construction. -/
  | finalizeGone {s L t n m} : s.tasks t = none → (kept = true → Begins s (.finalizing n m)) →
      s.poisoned = false → s.store.building n = none → Step kept c s L (s.poison t) L
  /-- src/storage/archive.rs:1476-1503 -/
  | finalizeStore {s L t n m} : s.tasks t = some (.finalizing n m) →
      ((ArchStore.finalizedFiles s.store.heap m).map (·.2)).flatten.length < 2 ^ 64 →
      Step kept c s L { s.setTask t none with store := storeFiles c s.store n m } (.finalized n :: L)
  /-- A rollup file is written and synced; that does not touch the map. -/
  | rollup {s d L n r data} : RollupFile.writeSync s.store.disk n data = .ok d →
      d.getRollup n = .ok (some r) →
      Step kept c s L { s with store := { s.store with disk := d } } (.rolled n r :: L)
  /-- A call that comes to the lock panics if it is poisoned: a new `get_file`, `file_exists`,
  `directory_exists`, `directories`, `write_bytes` or `finalize`, -/
  | startPoisoned {s L t} : s.tasks t = none → s.poisoned = true → Step kept c s L (s.panic t) L
  /-- or one that has yet to take it for writing. -/
  | goPoisoned {s L t x} : s.tasks t = some x → (∀ n m, x ≠ .finalizing n m) → s.poisoned = true →
      Step kept c s L (s.panic t) L

/-- The states a new store can come to. -/
inductive Run (kept : Bool) (c : OffsetCodec) : ArchConc → List ArchEvent → Prop
  | start : Run kept c {} []
  | step {s L s' L'} : Run kept c s L → Step kept c s L s' L' → Run kept c s' L'

/-- Several steps. -/
inductive Steps (kept : Bool) (c : OffsetCodec) :
    ArchConc → List ArchEvent → ArchConc → List ArchEvent → Prop
  | refl {s L} : Steps kept c s L s L
  | step {s L s' L' s'' L''} : Steps kept c s L s' L' → Step kept c s' L' s'' L'' →
      Steps kept c s L s'' L''

end ArchConc

end Verif
