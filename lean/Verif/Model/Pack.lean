import Verif.Model.Backend
import Verif.Model.Strings

/-!
Model of packs (src/storage/pack.rs). The tar and gzip libraries are taken to give back the
entries that were written, in their order; a pack is the list of its entries.
-/

namespace Verif

/-- The name of a layer as a component of a path. -/
def nameString (n : LayerName) : String := stringOf (nameToString n)

/-- An entry of a tar file: the components of its path, whether it is a regular file, its
contents. Paths that are not UTF-8 are left out. -/
structure PackEntry where
  path : List String
  isFile : Bool
  content : Bytes
deriving DecidableEq, Repr

namespace Pack

/-- `Path::file_name` (standard library): the last component, unless it is the root, the
current directory or the parent directory. -/
def fileName (path : List String) : Option String :=
  match path.getLast? with
  | none => none
  | some f => if f = ".." ∨ f = "." ∨ f = "/" then none else some f

/-- `Path::iter().next()`. -/
def first (path : List String) : Option String := path.head?

/-! ### Export -/

/-- The entry of a file that exists (src/storage/pack.rs:145-158, 178-190). The size in the
header is that of `size`, the data that of `map`; if they differ, the pack cannot be read any
more, which is a panic here. -/
def fileEntry (B : Backend) (s : B.State) (n : LayerName) (f : FileName) : Out (List PackEntry) :=
  (B.map s n f).bind (fun content =>
    (B.size s n f).bind (fun size =>
      if size = content.length then .ok [⟨[nameString n, f], true, content⟩] else .panic))

/-- `tar_append_file` (src/storage/pack.rs:137-166). -/
def appendFile (B : Backend) (s : B.State) (n : LayerName) (f : FileName) : Out (List PackEntry) :=
  (B.fileExists s n f).bind (fun e => if e then fileEntry B s n f else .err)

/-- `tar_append_file_if_exists` (src/storage/pack.rs:168-195). -/
def appendFileIfExists (B : Backend) (s : B.State) (n : LayerName) (f : FileName) :
    Out (List PackEntry) :=
  (B.fileExists s n f).bind (fun e => if e then fileEntry B s n f else .ok [])

/-- Entries for some files. -/
def appendAll (append : FileName → Out (List PackEntry)) (fs : List FileName) :
    Out (List PackEntry) :=
  (Out.collect append fs).bind (fun es => .ok es.flatten)

/-- `tar_append_layer` (src/storage/pack.rs:197-240). -/
def appendLayer (B : Backend) (s : B.State) (n : LayerName) : Out (List PackEntry) :=
  (appendAll (appendFile B s n) FileName.sharedRequired).bind (fun e1 =>
    (appendAll (appendFileIfExists B s n)
        (FileName.sharedOptional.filter (fun f => f ≠ FileName.rollup))).bind (fun e2 =>
      (B.fileExists s n FileName.parent).bind (fun child =>
        if child then
          (appendAll (appendFile B s n) FileName.childRequired).bind (fun e3 =>
            (appendAll (appendFileIfExists B s n) FileName.childOptional).bind (fun e4 =>
              .ok (⟨[nameString n], false, []⟩ :: (e1 ++ e2 ++ e3 ++ e4))))
        else
          (appendAll (appendFile B s n) FileName.baseRequired).bind (fun e3 =>
            (appendAll (appendFileIfExists B s n) FileName.baseOptional).bind (fun e4 =>
              .ok (⟨[nameString n], false, []⟩ :: (e1 ++ e2 ++ e3 ++ e4)))))))

/-- `export_layers` (src/storage/pack.rs:42-61). -/
def exportLayers (B : Backend) (s : B.State) (ids : List LayerName) : Out (List PackEntry) :=
  (Out.collect (appendLayer B s) ids).bind (fun es => .ok es.flatten)

/-! ### Import -/

/-- One entry of the pack (src/storage/pack.rs:85-122): `set` are the names that are wanted. -/
def importEntry (B : Backend) (set : List String) (s : B.State) (e : PackEntry) : Out B.State :=
  match fileName e.path with
  | none => .panic
  | some f =>
    let id := (first e.path).getD ""
    if id ∈ set then
      (ArchDir.unwrap (stringToName (textOf id))).bind (fun n =>
        if e.isFile then B.write s n f e.content else .ok s)
    else .ok s

/-- `import_layers` (src/storage/pack.rs:63-134): `order` is the order in which the set of
names is walked at the end. -/
def importLayers (B : Backend) (s : B.State) (pack : List PackEntry) (ids order : List LayerName) :
    Out B.State :=
  (Out.forEach B.create s ids).bind (fun s1 =>
    (Out.forEach (importEntry B (ids.map nameString)) s1 pack).bind (fun s2 =>
      Out.forEach B.finalize s2 order))

/-! ### Parents -/

/-- The map that `pack_layer_parents` builds. -/
abbrev Parents := List (LayerName × Option LayerName)

/-- `HashMap::insert`. -/
def Parents.insert (m : Parents) (n : LayerName) (p : Option LayerName) : Parents :=
  (n, p) :: m.filter (fun q => q.1 ≠ n)

/-- `entry(id).or_insert(None)`. -/
def Parents.orInsertNone (m : Parents) (n : LayerName) : Parents :=
  match m.lookup n with
  | some _ => m
  | none => (n, none) :: m

/-- A code point in UTF-8. -/
def utf8Char (c : Nat) : Bytes :=
  if c < 0x80 then [c]
  else if c < 0x800 then [0xC0 + c / 64, 0x80 + c % 64]
  else if c < 0x10000 then [0xE0 + c / 4096, 0x80 + c / 64 % 64, 0x80 + c % 64]
  else [0xF0 + c / 262144, 0x80 + c / 4096 % 64, 0x80 + c / 64 % 64, 0x80 + c % 64]

/-- `str::from_utf8`: bytes are UTF-8 if nothing in them is replaced in the lossy decoding, that
is, if encoding its result gives them back. -/
def fromUtf8 (b : Bytes) : Out Text :=
  if (utf8Lossy b).flatMap utf8Char = b then .ok (utf8Lossy b) else .err

/-- The contents of a parent entry (src/storage/pack.rs:287-290). -/
def parentId (content : Bytes) : Out LayerName :=
  if content.length < 40 then .err
  else (fromUtf8 (content.take 40)).bind stringToName

/-- One entry (src/storage/pack.rs:275-301). -/
def parentsEntry (m : Parents) (e : PackEntry) : Out Parents :=
  (Out.ofOption (first e.path)).bind (fun c =>
    (stringToName (textOf c)).bind (fun n =>
      (Out.ofOption (fileName e.path)).bind (fun f =>
        if f = "parent.hex" then (parentId e.content).bind (fun p => .ok (m.insert n (some p)))
        else .ok (m.orInsertNone n))))

/-- `pack_layer_parents` (src/storage/pack.rs:266-305). -/
def packLayerParents (pack : List PackEntry) : Out Parents := Out.forEach parentsEntry [] pack

end Pack

end Verif
