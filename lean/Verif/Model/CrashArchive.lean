import Verif.Model.Pack

/-!
Crashes of a process that uses an archive store, or that imports into a directory store.

What is on the disk stays, what was under construction is gone. The archive of a layer is written
straight to its place (src/storage/archive.rs:167-197), and the rollup file too, after it was
truncated (src/storage/archive.rs:334-337), so a crash may leave a part of either. As in
Model/Crash.lean, a crash keeps every write that was made before it.
-/

namespace Verif

/-! ### Archives -/

namespace ArchStore

/-- The bytes that `finalize` writes (src/storage/archive.rs:1474-1502). -/
def archiveOf (c : OffsetCodec) (s : ArchStore) (n : LayerName) : Bytes :=
  Archive.encode c (finalizedFiles s.heap ((s.building n).getD []))

/-- The bytes that `set_rollup` writes (src/storage/archive.rs:329-333). -/
def rollupBytes (r : LayerName) : Bytes := [49, 10] ++ nameToString r ++ [10]

/-- What happens to an archive store: calls, and crashes. -/
inductive Happening where
  /-- A call had an effect. -/
  | call (e : ArchEvent)
  /-- The process stopped; it was not writing a rollup file. -/
  | crash
  /-- The process stopped while it registered `r` as the rollup of `n`. -/
  | cutRollup (n r : LayerName)
deriving DecidableEq, Repr

/-- One step of a process or a crash, with what is noted about it, the newest first. -/
inductive CStep (c : OffsetCodec) : ArchStore → List Happening → ArchStore → Prop
  | call {s s' E} : Step c s [] s' E → CStep c s (E.map .call) s'
  /-- The process stops while it does not write to the disk. -/
  | crash {s} : CStep c s [.crash] { disk := s.disk }
  /-- The process stops during `finalize`, when `i` bytes of the archive are written. -/
  | cutArchive {s n s'} (i : Nat) : s.finalize c n = .ok s' →
      CStep c s [.crash] { disk := s.disk.storeLayerFile n ((s.archiveOf c n).take i) }
  /-- The process stops during `set_rollup`, when `i` bytes are written. -/
  | cutRollup {s n d} (r : LayerName) (i : Nat) : s.disk.setRollup n r = .ok d →
      CStep c s [.cutRollup n r]
        { disk := { s.disk with rollups := (n, (rollupBytes r).take i) :: s.disk.rollups } }

/-- All that may happen after some state. -/
inductive CLater (c : OffsetCodec) : ArchStore → List Happening → ArchStore → Prop
  | now {s} : CLater c s [] s
  | step {s L s' E s''} : CLater c s L s' → CStep c s' E s'' → CLater c s (E ++ L) s''

end ArchStore

/-! ### Imports -/

namespace Pack

/-- The states a store is in during `import_layers` (src/storage/pack.rs:63-134), and after an
import that failed: some calls are made. -/
inductive Midway (B : Backend) (s : B.State) (pack : List PackEntry) (ids order : List LayerName) :
    B.State → Prop
  /-- Some layers are created. -/
  | creating {s'} (k : Nat) : Out.forEach B.create s (ids.take k) = .ok s' →
      Midway B s pack ids order s'
  /-- Some entries are written. -/
  | writing {s1 s'} (k : Nat) : Out.forEach B.create s ids = .ok s1 →
      Out.forEach (importEntry B (ids.map nameString)) s1 (pack.take k) = .ok s' →
      Midway B s pack ids order s'
  /-- Some entries are written, and a part of the next one. -/
  | cut {s1 s2 s'} (k : Nat) (e : PackEntry) (i : Nat) : Out.forEach B.create s ids = .ok s1 →
      Out.forEach (importEntry B (ids.map nameString)) s1 (pack.take k) = .ok s2 →
      pack[k]? = some e →
      importEntry B (ids.map nameString) s2 { e with content := e.content.take i } = .ok s' →
      Midway B s pack ids order s'
  /-- Some layers are finalized. -/
  | finalizing {s1 s2 s'} (k : Nat) : Out.forEach B.create s ids = .ok s1 →
      Out.forEach (importEntry B (ids.map nameString)) s1 pack = .ok s2 →
      Out.forEach B.finalize s2 (order.take k) = .ok s' → Midway B s pack ids order s'

end Pack

end Verif
