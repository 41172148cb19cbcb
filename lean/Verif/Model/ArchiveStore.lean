import Verif.Model.ArchiveDir

/-!
Model of `ArchiveLayerStore` on a `DirectoryArchiveBackend` (src/storage/archive.rs:1198-1509).

A `ConstructionFile` is shared by all who got it, so files under construction live in a heap
and are named by their place in it. Each call is one step; in the code `get_file` of a new file
(lines 1431-1437) and `finalize` (lines 1469-1503) take more than one, see DESIGN.md.
-/

namespace Verif

/-- `ArchiveLayerStore` (src/storage/archive.rs:1327-1332). -/
structure ArchStore where
  disk : ArchDir := {}
  heap : List CFile := []
  constr : List (LayerName × List (FileKind × Nat)) := []

/-- `ArchiveLayerHandle` (src/storage/archive.rs:1197-1202). -/
inductive ArchHandle where
  | construction (h : Nat)
  | persistent (n : LayerName) (k : FileKind)
  | rollup (n : LayerName)
deriving DecidableEq, Repr

namespace ArchStore

/-- The files of a layer under construction. -/
def building (s : ArchStore) (n : LayerName) : Option (List (FileKind × Nat)) := s.constr.lookup n

/-- Set the files of a layer under construction. -/
def setBuilding (s : ArchStore) (n : LayerName) (m : List (FileKind × Nat)) : ArchStore :=
  { s with constr := (n, m) :: s.constr.filter (fun q => q.1 ≠ n) }

/-- The state of the file at a place in the heap. -/
def fileAt (s : ArchStore) (h : Nat) : Option CFile := s.heap[h]?

/-- Set the state of a file in the heap. -/
def setFile (s : ArchStore) (h : Nat) (f : CFile) : ArchStore := { s with heap := s.heap.set h f }

/-- `create_named_directory` (src/storage/archive.rs:1383-1399). -/
def createNamed (s : ArchStore) (n : LayerName) : Out ArchStore :=
  if s.disk.layerExists n then .panic
  else
    match s.building n with
    | some _ => .panic
    | none => .ok (s.setBuilding n [])

/-- `directory_exists` (src/storage/archive.rs:1401-1410). -/
def directoryExists (s : ArchStore) (n : LayerName) : Bool :=
  (s.building n).isSome || s.disk.layerExists n

/-- `get_file` (src/storage/archive.rs:1412-1447). -/
def getFile (s : ArchStore) (n : LayerName) (f : FileName) : Out (ArchHandle × ArchStore) := do
  let k ← f.kind
  if k = FileKind.rollup then .ok (.rollup n, s)
  else
    match s.building n with
    | none => .ok (.persistent n k, s)
    | some m =>
      match m.lookup k with
      | some h => .ok (.construction h, s)
      | none => .ok (.construction s.heap.length,
          { s with heap := s.heap ++ [CFile.new] }.setBuilding n ((k, s.heap.length) :: m))

/-- `write_bytes` (src/storage/archive.rs:1344-1355). -/
def writeBytes (s : ArchStore) (n : LayerName) (k : FileKind) (b : Bytes) : Out ArchStore :=
  match s.building n with
  | none => .panic
  | some m =>
    match m.lookup k with
    | some _ => .panic
    | none => .ok ({ s with heap := s.heap ++ [CFile.newFinalized b] }.setBuilding n
        ((k, s.heap.length) :: m))

/-- `file_exists` (src/storage/archive.rs:1449-1466). -/
def fileExists (s : ArchStore) (n : LayerName) (f : FileName) : Out Bool := do
  let k ← f.kind
  if k = FileKind.rollup then do
    let r ← s.disk.getRollup n
    return r.isSome
  else
    match s.building n with
    | some m => .ok (m.lookup k).isSome
    | none => s.disk.layerFileExists n k

/-- The finalized files among some (src/storage/archive.rs:1476-1480): the filter by `is_finalized`
and the map by `finalized_buf` (src/storage/archive.rs:669-685) are one match. -/
def finalizedFiles (heap : List CFile) : List (FileKind × Nat) → List (FileKind × Bytes)
  | [] => []
  | (k, h) :: m =>
    match heap[h]? with
    | some (.finalized b) => (k, b) :: finalizedFiles heap m
    | _ => finalizedFiles heap m

/-- `finalize` (src/storage/archive.rs:1468-1504): sizes that cannot be counted panic. -/
def finalize (c : OffsetCodec) (s : ArchStore) (n : LayerName) : Out ArchStore :=
  match s.building n with
  | none => .panic
  | some m =>
    let files := finalizedFiles s.heap m
    if 2 ^ 64 ≤ (files.map (·.2)).flatten.length then .panic
    else .ok { s with
      constr := s.constr.filter (fun q => q.1 ≠ n)
      disk := s.disk.storeLayerFile n (Archive.encode c files) }

/-- `layer_parent` (src/storage/archive.rs:1506-1508). -/
def layerParent (c : OffsetCodec) (s : ArchStore) (n : LayerName) : Out (Option LayerName) :=
  s.disk.getParent c n

/-! ### Handles -/

/-- Writing to a file under construction (src/storage/archive.rs:1282-1291). There is no handle
for a place outside the heap; that case is a panic. -/
def handleWrite (s : ArchStore) (h : Nat) (buf : Bytes) : Out (Nat × ArchStore) :=
  match s.fileAt h with
  | none => .panic
  | some f =>
    match f.write buf with
    | (.ok n, f') => .ok (n, s.setFile h f')
    | (.err, _) => .err
    | (.panic, _) => .panic

/-- Syncing a file under construction (src/storage/archive.rs:1316-1321). -/
def handleSync (s : ArchStore) (h : Nat) : Out ArchStore :=
  match s.fileAt h with
  | none => .panic
  | some f =>
    match f.sync with
    | (.ok _, f') => .ok (s.setFile h f')
    | (.err, _) => .err
    | (.panic, _) => .panic

/-- `open_write` of a handle (src/storage/archive.rs:1207-1214). -/
def openWrite : ArchHandle → Out ArchHandle
  | .persistent _ _ => .panic
  | h => .ok h

/-- `exists` of a handle (src/storage/archive.rs:1220-1226). -/
def handleExists (s : ArchStore) : ArchHandle → Out Bool
  | .construction h => (Out.ofOption (s.fileAt h)).bind (fun f => .ok f.exists)
  | .persistent n k => s.disk.layerFileExists n k
  | .rollup n => RollupFile.exists s.disk n

/-- `size` of a handle (src/storage/archive.rs:1227-1233). -/
def handleSize (c : OffsetCodec) (s : ArchStore) : ArchHandle → Out Nat
  | .construction h => (Out.ofOption (s.fileAt h)).bind (fun f => f.size)
  | .persistent n k => s.disk.getStructureSize c n k
  | .rollup n => RollupFile.size s.disk n

/-- `map` of a handle (src/storage/archive.rs:1247-1253). -/
def handleMap (c : OffsetCodec) (s : ArchStore) : ArchHandle → Out Bytes
  | .construction h => (Out.ofOption (s.fileAt h)).bind (fun f => f.map)
  | .persistent n k => Slice.map c s.disk n k
  | .rollup n => RollupFile.map s.disk n

/-- `ArchiveLayerHandleReader` (src/storage/archive.rs:1256-1260). -/
inductive Reader where
  | construction (f : CFile)
  | persistent (r : SliceReader)
  | rollup (b : Bytes)
deriving DecidableEq, Repr

/-- `open_read_from` of a handle (src/storage/archive.rs:1235-1245). -/
def handleOpenRead (c : OffsetCodec) (s : ArchStore) (off : Nat) : ArchHandle → Out Reader
  | .construction h => (Out.ofOption (s.fileAt h)).bind (fun f =>
      (f.openReadFrom off).bind (fun r => .ok (.construction r)))
  | .persistent n k => (s.disk.readFrom c n k off).bind (fun r => .ok (.persistent r))
  | .rollup n => (RollupFile.openReadFrom s.disk n off).bind (fun r => .ok (.rollup r))

/-- Reading again and again from a reader (src/storage/archive.rs:1263-1273): each buffer size
with what was read into it. -/
inductive Reader.Reads : Reader → List (Nat × Bytes) → Prop
  | construction {f : CFile} (caps : List Nat) : Reads (.construction f) (f.reads caps)
  | persistent {r : SliceReader} {tr : List (Nat × Bytes)} : r.Reads tr → Reads (.persistent r) tr
  | rollup {b : Bytes} (caps : List Nat) : Reads (.rollup b) (bytesReads b caps)

end ArchStore

/-! ### Histories -/

/-- What happened to a store. -/
inductive ArchEvent where
  /-- A layer was created. -/
  | created (n : LayerName)
  /-- A new file was opened for a layer under construction. -/
  | opened (n : LayerName) (k : FileKind) (h : Nat)
  /-- Bytes were written to a file. -/
  | wrote (h : Nat) (buf : Bytes)
  /-- A file was synced. -/
  | synced (h : Nat)
  /-- A layer was finalized. -/
  | finalized (n : LayerName)
  /-- A rollup was registered. -/
  | rolled (n r : LayerName)
deriving DecidableEq, Repr

namespace ArchStore

/-- One call that changes the store, with what is noted about it, the newest first. Calls that
fail change nothing. -/
inductive Step (c : OffsetCodec) : ArchStore → List ArchEvent → ArchStore → List ArchEvent → Prop
  | create {s s' L n} : s.createNamed n = .ok s' → Step c s L s' (.created n :: L)
  /-- `get_file` makes a new file. -/
  | getNew {s s' L n f k} : FileName.kind f = .ok k →
      s.getFile n f = .ok (.construction s.heap.length, s') → Step c s L s' (.opened n k s.heap.length :: L)
  /-- `get_file` finds the file or gives another handle. -/
  | getOld {s s' L n f h} : s.getFile n f = .ok (h, s') → h ≠ .construction s.heap.length →
      Step c s L s' L
  | writeBytes {s s' L n k b} : s.writeBytes n k b = .ok s' →
      Step c s L s' (.synced s.heap.length :: .wrote s.heap.length b :: .opened n k s.heap.length :: L)
  | write {s s' L h buf m} : s.handleWrite h buf = .ok (m, s') → Step c s L s' (.wrote h buf :: L)
  | sync {s s' L h} : s.handleSync h = .ok s' → Step c s L s' (.synced h :: L)
  | finalize {s s' L n} : s.finalize c n = .ok s' → Step c s L s' (.finalized n :: L)
  /-- A rollup file is written and synced. -/
  | rollup {s d L n r data} : RollupFile.writeSync s.disk n data = .ok d →
      d.getRollup n = .ok (some r) → Step c s L { s with disk := d } (.rolled n r :: L)

/-- The states a new store can come to. -/
inductive Run (c : OffsetCodec) : ArchStore → List ArchEvent → Prop
  | start : Run c {} []
  | step {s L s' L'} : Run c s L → Step c s L s' L' → Run c s' L'

end ArchStore

end Verif
