import Verif.Model.Archive

/-!
Model of `DirectoryArchiveBackend` (src/storage/archive.rs:97-353), `PersistentFileSlice`
(src/storage/archive.rs:1045-1080) and `ArchiveRollupFile` (src/storage/archive.rs:1083-1195).

A directory has two files for a layer, the archive and the rollup file. Only missing files,
short files and bad contents are errors; other failures of the disk are left out. Locks are
left out too: each call is one step.
-/

namespace Verif

/-- The files of a `DirectoryArchiveBackend`, by the name of the layer. -/
structure ArchDir where
  /-- The `.larch` files. -/
  larch : List (LayerName × Bytes) := []
  /-- The `.rollup.hex` files. -/
  rollups : List (LayerName × Bytes) := []

namespace ArchDir

/-- The archive of a layer. -/
def file (d : ArchDir) (n : LayerName) : Option Bytes := d.larch.lookup n

/-- Open a file and read it: a missing file is an error. -/
def «open» (d : ArchDir) (n : LayerName) : Out Bytes := ArchiveHeader.orErr (d.file n)

/-- `get_layer_bytes` (src/storage/archive.rs:128-144). -/
def getLayerBytes (d : ArchDir) (n : LayerName) : Out Bytes := d.open n

/-- `get_layer_structure_bytes` (src/storage/archive.rs:146-165). -/
def getStructureBytes (c : OffsetCodec) (d : ArchDir) (n : LayerName) (k : FileKind) :
    Out (Option Bytes) := do
  let b ← d.open n
  let h ← ArchiveHeader.parseFromReader c b
  let r ← h.1.rangeFor k
  match r with
  | none => .ok none
  | some (s, e) => do
    let x ← ArchiveHeader.orErr (readExact (e - s) (h.2.drop s))
    return some x.1

/-- `store_layer_file` (src/storage/archive.rs:167-197): the file is not truncated. -/
def storeLayerFile (d : ArchDir) (n : LayerName) (b : Bytes) : ArchDir :=
  { d with larch := (n, b ++ ((d.file n).getD []).drop b.length) :: d.larch }

/-- `read_layer_structure_bytes_from` (src/storage/archive.rs:199-221): the subtraction of an
offset past the end panics (in a release build it wraps around). -/
def readFrom (c : OffsetCodec) (d : ArchDir) (n : LayerName) (k : FileKind) (off : Nat) :
    Out SliceReader := do
  let b ← d.open n
  let h ← ArchiveHeader.parseFromReader c b
  let r ← h.1.rangeFor k
  match r with
  | none => .err
  | some (s, e) =>
    if e - s < off then .panic else .ok ⟨h.2.drop (s + off), e - s - off⟩

/-- `layer_exists` (src/storage/archive.rs:245-257). -/
def layerExists (d : ArchDir) (n : LayerName) : Bool := (d.file n).isSome

/-- `layer_size` (src/storage/archive.rs:259-263). -/
def layerSize (d : ArchDir) (n : LayerName) : Out Nat := do
  let b ← d.open n
  return b.length

/-- `layer_file_exists` (src/storage/archive.rs:265-282). -/
def layerFileExists (d : ArchDir) (n : LayerName) (k : FileKind) : Out Bool :=
  match d.file n with
  | none => .ok false
  | some b => do
    let p ← ArchiveHeader.orErr (getU64 b)
    return Presence.isPresent p.1 k

/-- `get_layer_structure_size` (src/storage/archive.rs:284-299). -/
def getStructureSize (c : OffsetCodec) (d : ArchDir) (n : LayerName) (k : FileKind) : Out Nat := do
  let b ← d.open n
  let h ← ArchiveHeader.parseFromReader c b
  let r ← h.1.sizeOf k
  ArchiveHeader.orErr r

/-- The second line of a rollup file; it is a panic if there is none. -/
def secondLine (t : Text) : Out Text := Out.ofOption t.lines[1]?

/-- `get_rollup` (src/storage/archive.rs:301-322). Contents that are not UTF-8 are an error in
the code; here they are decoded with replacements, which `string_to_name` rejects. -/
def getRollup (d : ArchDir) (n : LayerName) : Out (Option LayerName) :=
  match d.file n with
  | none => .ok none
  | some _ =>
    match d.rollups.lookup n with
    | none => .ok none
    | some b => do
      let l ← secondLine (utf8Lossy b)
      let r ← stringToName l
      return some r

/-- `set_rollup` (src/storage/archive.rs:324-340). -/
def setRollup (d : ArchDir) (n r : LayerName) : Out ArchDir :=
  match d.file n with
  | none => .err
  | some _ => .ok { d with rollups := (n, [49, 10] ++ nameToString r ++ [10]) :: d.rollups }

/-- `unwrap`: an error becomes a panic. -/
def unwrap {α : Type} : Out α → Out α
  | .ok a => .ok a
  | _ => .panic

/-- The name in a parent file (src/storage/archive.rs:347-348, 639-640): a short file, bytes
that are not UTF-8 and a bad name are panics. -/
def parentName (b : Bytes) : Out LayerName :=
  if b.length < 40 then .panic else unwrap (stringToName (utf8Lossy (b.take 40)))

/-- `get_parent` (src/storage/archive.rs:342-352). -/
def getParent (c : OffsetCodec) (d : ArchDir) (n : LayerName) : Out (Option LayerName) := do
  let b ← d.getStructureBytes c n FileKind.parent
  match b with
  | none => .ok none
  | some b => do
    let p ← parentName b
    return some p

end ArchDir

/-! ### Stored files -/

namespace Slice

/-- `PersistentFileSlice::map` (src/storage/archive.rs:1067-1072). -/
def map (c : OffsetCodec) (d : ArchDir) (n : LayerName) (k : FileKind) : Out Bytes := do
  let b ← d.getStructureBytes c n k
  ArchiveHeader.orErr b

end Slice

/-! ### Rollup files -/

namespace RollupFile

/-- `ArchiveRollupFile::exists` (src/storage/archive.rs:1092-1098). -/
def «exists» (d : ArchDir) (n : LayerName) : Out Bool := do
  let r ← d.getRollup n
  return r.isSome

/-- `ArchiveRollupFile::size` (src/storage/archive.rs:1100-1114):
`size_of::<[u32; 5]>() + 2`. -/
def size (d : ArchDir) (n : LayerName) : Out Nat := do
  let r ← d.getRollup n
  if r.isSome then .ok (5 * 4 + 2) else .err

/-- `ArchiveRollupFile::map` (src/storage/archive.rs:1122-1135). -/
def map (d : ArchDir) (n : LayerName) : Out Bytes := do
  let r ← d.getRollup n
  match r with
  | some r => .ok ([49, 10] ++ nameToString r)
  | none => .err

/-- `ArchiveRollupFile::open_read_from` (src/storage/archive.rs:1116-1120): the bytes of the
reader; `Bytes::advance` past the end panics. -/
def openReadFrom (d : ArchDir) (n : LayerName) (off : Nat) : Out Bytes := do
  let b ← map d n
  if b.length < off then .panic else .ok (b.drop off)

/-- `ArchiveRollupFileWriter::sync_all` (src/storage/archive.rs:1184-1194) after `data` was
written (lines 1157-1165); bytes that are not UTF-8 are a panic in the code, here
replacements, which `string_to_name` rejects. -/
def writeSync (d : ArchDir) (n : LayerName) (data : Bytes) : Out ArchDir := do
  let l ← ArchDir.secondLine (utf8Lossy data)
  let r ← stringToName l
  d.setRollup n r

end RollupFile

end Verif
