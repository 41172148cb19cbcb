import Verif.Model.Files

/-!
The files that layers have, by their names.
-/

namespace Verif.PackSpec

/-- Whether a file name begins with some text. -/
def hasPrefix (p f : FileName) : Bool := p.toList.isPrefixOf f.toList

/-- The names of the files that a base layer or a child layer can have, without the rollup. -/
def names (child : Bool) : List FileName :=
  (FileName.table.map (·.1)).filter (fun f => f ≠ FileName.rollup &&
    (if child then !hasPrefix "base_" f
     else !hasPrefix "pos_" f && !hasPrefix "neg_" f && !hasPrefix "child_" f &&
      f ≠ FileName.parent))

/-- The names of the files that a layer cannot do without: there are no id maps in a layer that
is not a rollup, and layers that were written by old versions have no lists of subjects and
objects. -/
def required (child : Bool) : List FileName :=
  (names child).filter (fun f => !hasPrefix "node_value_idmap" f && !hasPrefix "predicate_idmap" f &&
    !hasPrefix "child_" f && f ≠ "base_subjects.logarray" && f ≠ "base_objects.logarray")

end Verif.PackSpec
