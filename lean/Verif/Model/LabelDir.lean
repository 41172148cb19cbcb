import Verif.Model.LabelStore

/-!
Model of how the label stores on disk find their labels in a directory
(src/storage/directory.rs:199-220, 320-357). The directory is the one that layers are in too
(`open_directory_store`, `open_archive_store`, src/store/mod.rs), so there are entries that
are no labels.

The entries are taken at one moment. In `Verif/Model/LabelStore.lean` the files are read one
by one while others write them.
-/

namespace Verif

/-- An entry of a directory: its name, if it is UTF-8, whether it is a file, and what it
contains. -/
structure DirEntry where
  name : Option Text
  isFile : Bool
  data : Bytes
deriving DecidableEq, Repr

/-- `name.ends_with(".label")` (src/storage/directory.rs:212, 345). -/
def endsWithLabel (f : Text) : Bool := [46, 108, 97, 98, 101, 108].isSuffixOf f

/-- `labels` of the directory label store (src/storage/directory.rs:200-220): the names and
contents of the labels. -/
def listLabels : List DirEntry → Out (List (Text × LabelData LayerName))
  | [] => .ok []
  | e :: es =>
    if e.isFile then
      match e.name with
      | none => .err
      | some f =>
        if endsWithLabel f then do
          let l ← readLabelFile e.data
          let r ← listLabels es
          return (fileStem f, l) :: r
        else listLabels es
    else listLabels es

/-- `get_all_labels_from_dir` (src/storage/directory.rs:336-357): the entries of the map that
the cached store starts with, each with its key, the name in the label and the contents. The
names in a directory are different, so that no entry replaces another. -/
def openLabels : List DirEntry → Out (List (Text × Text × LabelData LayerName))
  | [] => .ok []
  | e :: es =>
    if e.isFile then
      match e.name with
      | none => openLabels es
      | some f =>
        if endsWithLabel f then do
          let l ← readLabelFile e.data
          let r ← openLabels es
          return (f.take (f.length - 6), fileStem f, l) :: r
        else openLabels es
    else openLabels es

end Verif
