import Verif.Model.ArchiveStore

/-!
Model of the three layer stores as places for files: `DirectoryLayerStore`
(src/storage/directory.rs:18-115), `MemoryLayerStore` (src/storage/memory.rs:16-77) and
`ArchiveLayerStore` (src/storage/archive.rs:1327-1509), behind the interface
`PersistentLayerStore` (src/storage/layer.rs:355-395).

Each call is one step. Failures of the disk are left out, apart from missing files and
directories.
-/

namespace Verif

/-- What importing and exporting layers uses of `PersistentLayerStore`
(src/storage/layer.rs:355-395) and of its files. -/
structure Backend where
  State : Type
  /-- `create_named_directory`. -/
  create : State → LayerName → Out State
  /-- `directory_exists`. -/
  directoryExists : State → LayerName → Bool
  /-- `directories`, the result of `layers` (src/storage/layer.rs:1429-1431). -/
  directories : State → Out (List LayerName)
  /-- `get_file`, `open_write`, `write_all`, `flush`, `sync_all`. -/
  write : State → LayerName → FileName → Bytes → Out State
  /-- `finalize`, called by `finalize_layer` (src/storage/layer.rs:1589-1591). -/
  finalize : State → LayerName → Out State
  /-- `file_exists`. -/
  fileExists : State → LayerName → FileName → Out Bool
  /-- `get_file`, then `map`. -/
  map : State → LayerName → FileName → Out Bytes
  /-- `get_file`, then `size`. -/
  size : State → LayerName → FileName → Out Nat
  /-- `layer_parent`, the result of `get_layer_parent_name`. -/
  layerParent : State → LayerName → Out (Option LayerName)

/-- Do something for each element of a list; the first failure ends it. -/
def Out.forEach {α σ : Type} (f : σ → α → Out σ) : σ → List α → Out σ
  | s, [] => .ok s
  | s, a :: l => (f s a).bind (fun s' => forEach f s' l)

/-- Collect the results for the elements of a list; the first failure ends it. -/
def Out.collect {α β : Type} (f : α → Out β) : List α → Out (List β)
  | [] => .ok []
  | a :: l => (f a).bind (fun b => (collect f l).bind (fun bs => .ok (b :: bs)))

/-- `layer_parent` as the trait defines it (src/storage/layer.rs:381-395), with
`read_parent_file` (src/storage/layer.rs:666-675). -/
def defaultLayerParent (dirExists : Bool) (hasParent : Out Bool) (parent : Out Bytes) :
    Out (Option LayerName) :=
  if dirExists then
    hasParent.bind (fun b =>
      if b then parent.bind (fun bytes => (readParentFile bytes).bind (fun p => .ok (some p)))
      else .ok none)
  else .err

/-! ### Directories -/

/-- A directory with the layers in it: for each layer the files in its directory
(src/storage/directory.rs:20-29). The path of a layer is determined by its name. -/
structure DirLayers where
  layers : List (LayerName × List (FileName × Bytes)) := []
deriving DecidableEq, Repr

namespace DirLayers

/-- The files of a layer. -/
def files (s : DirLayers) (n : LayerName) : Option (List (FileName × Bytes)) := s.layers.lookup n

/-- `create_named_directory` (src/storage/directory.rs:53-62): `create_dir_all` does nothing if
the directory is there. -/
def create (s : DirLayers) (n : LayerName) : DirLayers :=
  match s.files n with
  | some _ => s
  | none => ⟨(n, []) :: s.layers⟩

/-- `directory_exists` (src/storage/directory.rs:64-74). -/
def directoryExists (s : DirLayers) (n : LayerName) : Bool := (s.files n).isSome

/-- The directories right in the directory of the store: the prefixes of the names
(src/storage/directory.rs:16, 55-57). -/
def prefixes (s : DirLayers) : List Text :=
  (s.layers.map (fun q => (nameToString q.1).take 3)).eraseDups

/-- `directories` (src/storage/directory.rs:34-51). -/
def directories (s : DirLayers) : Out (List LayerName) := Out.collect stringToName s.prefixes

/-- `get_file` (src/storage/directory.rs:76-83) and writing the file. `FileBackedStore` is a
part of tdb-succinct: a file that is there is overwritten from its beginning; whether it is
truncated first is left open (`trunc`). -/
def write (trunc : Bool) (s : DirLayers) (n : LayerName) (f : FileName) (b : Bytes) :
    Out DirLayers :=
  match s.files n with
  | none => .err
  | some fs =>
    let rest := if trunc then [] else ((fs.lookup f).getD []).drop b.length
    .ok ⟨(n, (f, b ++ rest) :: fs) :: s.layers⟩

/-- `finalize` (src/storage/directory.rs:97-114). -/
def finalize (s : DirLayers) (n : LayerName) : Out DirLayers :=
  match s.files n with
  | none => .err
  | some _ => .ok s

/-- The contents of a file. -/
def content (s : DirLayers) (n : LayerName) (f : FileName) : Option Bytes :=
  (s.files n).bind (fun fs => fs.lookup f)

/-- `file_exists` (src/storage/directory.rs:85-96). -/
def fileExists (s : DirLayers) (n : LayerName) (f : FileName) : Bool := (s.content n f).isSome

/-- `map` of a file: a missing file is an error. -/
def map (s : DirLayers) (n : LayerName) (f : FileName) : Out Bytes :=
  match s.content n f with
  | none => .err
  | some b => .ok b

/-- `size` of a file: a missing file is an error. -/
def size (s : DirLayers) (n : LayerName) (f : FileName) : Out Nat :=
  match s.content n f with
  | none => .err
  | some b => .ok b.length

end DirLayers

/-- `DirectoryLayerStore` (src/storage/directory.rs:18-115). -/
def Backend.directory (trunc : Bool) : Backend where
  State := DirLayers
  create s n := .ok (s.create n)
  directoryExists := DirLayers.directoryExists
  directories := DirLayers.directories
  write := DirLayers.write trunc
  finalize := DirLayers.finalize
  fileExists s n f := .ok (s.fileExists n f)
  map := DirLayers.map
  size := DirLayers.size
  layerParent s n := defaultLayerParent (s.directoryExists n)
    (.ok (s.fileExists n FileName.parent)) (s.map n FileName.parent)

/-! ### Memory -/

/-- `MemoryLayerStore` (src/storage/memory.rs:16-19): a file that was got and not written is in
the map without contents. -/
structure MemLayers where
  layers : List (LayerName × List (FileName × Option Bytes)) := []
deriving DecidableEq, Repr

namespace MemLayers

/-- The files of a layer. -/
def files (s : MemLayers) (n : LayerName) : Option (List (FileName × Option Bytes)) :=
  s.layers.lookup n

/-- Set the files of a layer. -/
def setFiles (s : MemLayers) (n : LayerName) (fs : List (FileName × Option Bytes)) : MemLayers :=
  ⟨(n, fs) :: s.layers.filter (fun q => q.1 ≠ n)⟩

/-- `create_named_directory` (src/storage/memory.rs:36-41): the files of a layer with that name
are dropped. -/
def create (s : MemLayers) (n : LayerName) : MemLayers := s.setFiles n []

/-- `directory_exists` (src/storage/memory.rs:43-46). -/
def directoryExists (s : MemLayers) (n : LayerName) : Bool := (s.files n).isSome

/-- `directories` (src/storage/memory.rs:31-34). -/
def directories (s : MemLayers) : List LayerName := s.layers.map (·.1)

/-- `get_file` (src/storage/memory.rs:61-76): a new file has no contents. -/
def getFile (s : MemLayers) (n : LayerName) (f : FileName) : Out MemLayers :=
  match s.files n with
  | none => .err
  | some fs =>
    match fs.lookup f with
    | some _ => .ok s
    | none => .ok (s.setFiles n ((f, none) :: fs))

/-- `get_file`, and writing and syncing the file: `MemoryBackedStore` (a part of tdb-succinct)
takes what was written through the writer as its contents. -/
def write (s : MemLayers) (n : LayerName) (f : FileName) (b : Bytes) : Out MemLayers :=
  (s.getFile n f).bind (fun s' =>
    match s'.files n with
    | none => .err
    | some fs => .ok (s'.setFiles n ((f, some b) :: fs)))

/-- The contents of a file. -/
def content (s : MemLayers) (n : LayerName) (f : FileName) : Option Bytes :=
  (s.files n).bind (fun fs => (fs.lookup f).bind (fun b => b))

/-- `file_exists` (src/storage/memory.rs:48-59). -/
def fileExists (s : MemLayers) (n : LayerName) (f : FileName) : Bool :=
  match s.files n with
  | none => false
  | some fs =>
    match fs.lookup f with
    | none => false
    | some b => b.isSome

/-- `get_file` and `map`: a file without contents is an error. That `get_file` adds the file to
the map if it was missing is left out here; nothing shows it. -/
def map (s : MemLayers) (n : LayerName) (f : FileName) : Out Bytes :=
  match s.content n f with
  | none => .err
  | some b => .ok b

/-- `get_file` and `size`, like `map`. -/
def size (s : MemLayers) (n : LayerName) (f : FileName) : Out Nat :=
  match s.content n f with
  | none => .err
  | some b => .ok b.length

end MemLayers

/-- `MemoryLayerStore` (src/storage/memory.rs:16-77): `finalize` does nothing
(src/storage/layer.rs:369-371). -/
def Backend.memory : Backend where
  State := MemLayers
  create s n := .ok (s.create n)
  directoryExists := MemLayers.directoryExists
  directories s := .ok s.directories
  write := MemLayers.write
  finalize s _ := .ok s
  fileExists s n f := .ok (s.fileExists n f)
  map := MemLayers.map
  size := MemLayers.size
  layerParent s n := defaultLayerParent (s.directoryExists n)
    (.ok (s.fileExists n FileName.parent)) (s.map n FileName.parent)

/-! ### Archives -/

namespace ArchDir

/-- What is right in the directory of an archive backend: for each file of a layer the directory
it is in, named by the first three digits (src/storage/archive.rs:106-124). An entry is its name
and whether it is a file. -/
def rootEntries (d : ArchDir) : List (Text × Bool) :=
  ((d.larch.map (·.1) ++ d.rollups.map (·.1)).map (fun n => ((nameToString n).take 3, false))).eraseDups

/-- `".larch"`. -/
def larchSuffix : Text := [46, 108, 97, 114, 99, 104]

/-- `get_layer_names` (src/storage/archive.rs:225-243). -/
def layerNames (d : ArchDir) : Out (List LayerName) :=
  Out.collect (fun e => stringToName (e.1.take (e.1.length - 6)))
    (d.rootEntries.filter (fun e => larchSuffix.isSuffixOf e.1 && e.2))

end ArchDir

namespace ArchStore

/-- `directories` (src/storage/archive.rs:1366-1381); the result is not sorted here. -/
def directories (s : ArchStore) : Out (List LayerName) :=
  s.disk.layerNames.bind (fun l => .ok (l ++ s.constr.map (·.1)).eraseDups)

/-- `get_file`, `open_write`, `write_all`, `flush`, `sync_all` on an archive store
(src/storage/archive.rs:1412-1447, 1204-1218, 1282-1324). `write_all` does not write an empty
buffer; here it writes nothing. -/
def write (s : ArchStore) (n : LayerName) (f : FileName) (b : Bytes) : Out ArchStore :=
  (s.getFile n f).bind (fun q =>
    (openWrite q.1).bind (fun h =>
      match h with
      | .construction i => (q.2.handleWrite i b).bind (fun r => r.2.handleSync i)
      | .persistent _ _ => .panic
      | .rollup m => (RollupFile.writeSync q.2.disk m b).bind (fun d => .ok { q.2 with disk := d })))

/-- `get_file` and `map`: that `get_file` may add a file under construction is left out. -/
def map (c : OffsetCodec) (s : ArchStore) (n : LayerName) (f : FileName) : Out Bytes :=
  (s.getFile n f).bind (fun q => q.2.handleMap c q.1)

/-- `get_file` and `size`, like `map`. -/
def size (c : OffsetCodec) (s : ArchStore) (n : LayerName) (f : FileName) : Out Nat :=
  (s.getFile n f).bind (fun q => q.2.handleSize c q.1)

end ArchStore

/-- `ArchiveLayerStore` (src/storage/archive.rs:1327-1509). -/
def Backend.archive (c : OffsetCodec) : Backend where
  State := ArchStore
  create := ArchStore.createNamed
  directoryExists := ArchStore.directoryExists
  directories := ArchStore.directories
  write := ArchStore.write
  finalize := ArchStore.finalize c
  fileExists := ArchStore.fileExists
  map := ArchStore.map c
  size := ArchStore.size c
  layerParent := ArchStore.layerParent c

/-! ### The three kinds -/

/-- The kinds of stores. -/
inductive StoreKind where
  | directory (trunc : Bool)
  | memory
  | archive (c : OffsetCodec)

/-- The store of a kind. -/
def StoreKind.backend : StoreKind → Backend
  | .directory trunc => .directory trunc
  | .memory => .memory
  | .archive c => .archive c

/-- A state that the store can come to by its own calls. For directories every state counts,
for memory every state in which no layer is in the map twice. -/
def StoreKind.Reached : (K : StoreKind) → K.backend.State → Prop
  | .directory _, _ => True
  | .memory, s => ((show MemLayers from s).layers.map (·.1)).Nodup
  | .archive c, s => ∃ L, ArchStore.Run c s L

/-- A layer that is completely in a store: it is there, and not under construction. -/
def StoreKind.Present : (K : StoreKind) → K.backend.State → LayerName → Prop
  | .directory _, s, n => DirLayers.directoryExists s n = true
  | .memory, s, n => MemLayers.directoryExists s n = true
  | .archive _, s, n => (show ArchStore from s).disk.layerExists n = true

end Verif
