import Verif.Model.Conc
import Verif.LifeSpec

/-!
Model of a store on disk that is used by one process after the other. A process stops at any
moment between two steps of `Verif/Model/Conc.lean`. Of a layer whose files are being written at
that moment only the directory or nothing stays, and its name is one of those that are not free
afterwards; so are the names of builders, whose directories are made with them
(src/storage/directory.rs:52-61). A layer with some of its files is left out here: it is told from
a complete one by C52. So is a label file or a rollup file that is half written (C37, C52).
-/

namespace Verif.Conc

open Spec SimpleBuilder Store Api

variable {K V L : Type} [LinearOrder K] [LinearOrder V] [DecidableEq L]

/-- `open_archive_store`, `open_raw_archive_store` and `open_directory_store`
(src/store/mod.rs:914-957) with what another process has left: the files are there, the cache is
empty. -/
def Shop.opened (M : Shop K V L) (lost : List Name) : Shop K V L :=
  { session := { store := M.session.store, labels := M.session.labels, disk := M.session.disk,
                 lost := lost }
    seen := [⟨M.session.store, noCache⟩] }

/-- The names for which there may be a directory without a layer when a process stops. -/
structure Shop.Leaves (M : Shop K V L) (lost : List Name) : Prop where
  disk : M.session.disk = true
  old : ∀ n ∈ M.session.lost, n ∈ lost
  builders : ∀ x ∈ M.session.builders, M.session.store.get? x.name = none → x.name ∈ lost
  only : ∀ n ∈ lost, n ∈ M.session.lost ∨ M.session.store.get? n = none

/-- What may happen in one process after the other. -/
inductive Lives : Shop K V L → List (List (Event K V L)) → Prop
  | last {M evs N} : Runs M evs N → Lives M [evs]
  | stop {M evs N lost rest} : Runs M evs N → N.Leaves lost → Lives (N.opened lost) rest →
      Lives M (evs :: rest)

end Verif.Conc
