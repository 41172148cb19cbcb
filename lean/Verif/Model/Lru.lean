import Verif.Model.ArchiveDir

/-!
Model of `LruArchiveBackend` (src/storage/archive.rs:355-645) on a `DirectoryArchiveBackend`,
which is both its origin of data and of metadata.

`get_layer_bytes` takes several steps: under the lock of the cache it looks for an entry; if
there is none it puts a `Resolving` entry with a barrier that it keeps locked, reads the file,
sets the barrier, and under the lock again replaces or removes the entry; if there is such an
entry it waits for the barrier. Each of these is a step, and any number of calls run at the
same time.

Each call makes at most one barrier, so a barrier is named by the call that made it.

The file of a layer is written in parts (src/storage/archive.rs:176-181), and nothing keeps others
from reading it meanwhile. Parts are only added at the end, so reading to the end of the file gives
what the file is when the end is seen: this is one step.
-/

namespace Verif

namespace Lru

/-- `CacheEntry` (src/storage/archive.rs:364-368); `Resolving` has the call that made the
barrier. -/
inductive Entry where
  | resolving (t : Nat)
  | resolved (b : Bytes)
deriving DecidableEq, Repr

/-- `LruCache` (external crate `lru`): the entry used last comes first. -/
abbrev Cache := List (LayerName × Entry)

namespace Cache

/-- `LruCache::peek`. -/
def peek (c : Cache) (n : LayerName) : Option Entry := c.lookup n

/-- The cache without an entry. -/
def without (c : Cache) (n : LayerName) : Cache := c.filter (fun q => q.1 ≠ n)

/-- `LruCache::promote`, and what `get` and `get_mut` do to the order. -/
def promote (c : Cache) (n : LayerName) : Cache :=
  match c.peek n with
  | none => c
  | some e => (n, e) :: c.without n

/-- `LruCache::get_or_insert`. -/
def getOrInsert (c : Cache) (n : LayerName) (e : Entry) : Cache :=
  match c.peek n with
  | some _ => c.promote n
  | none => (n, e) :: c

/-- Change the entry that `get_mut` finds. -/
def setMut (c : Cache) (n : LayerName) (e : Entry) : Cache := (n, e) :: c.without n

/-- `LruCache::demote`. -/
def demote (c : Cache) (n : LayerName) : Cache :=
  match c.peek n with
  | none => c
  | some e => c.without n ++ [(n, e)]

/-- `LruCache::pop_lru`, without the entry. -/
def popLru (c : Cache) : Cache := c.dropLast

/-- `ensure_additional_cache_space` (src/storage/archive.rs:405-437). `none` is the panic of an
empty cache and the loop that goes on for ever when all entries are being resolved. -/
def ensureAdditional : Nat → Cache → Nat → Option Cache
  | 0, _, _ => none
  | fuel + 1, c, required =>
    if required = 0 then some c
    else
      match c.getLast? with
      | none => none
      | some (n, .resolving _) => ensureAdditional fuel (c.promote n) required
      | some (_, .resolved b) =>
        if required ≤ b.length then some c.popLru
        else ensureAdditional fuel c.popLru (required - b.length)

/-- `ensure_enough_cache_space` (src/storage/archive.rs:439-457): no cache if it does not fit;
`none` as above, and for a negative difference. -/
def ensureEnough (c : Cache) (limit current required : Nat) : Option (Option Cache) :=
  if limit < required then some none
  else if limit < current then none
  else if limit - current < required then
    match ensureAdditional (c.length * (c.length + 1) + 1) c (required - (limit - current)) with
    | none => none
    | some c' => some (some c')
  else some (some c)

/-- `drop_from_cache` (src/storage/archive.rs:459-463); `none` if the entry is missing. -/
def drop (c : Cache) (n : LayerName) : Option Cache :=
  match c.peek n with
  | none => none
  | some _ => some (c.demote n).popLru

end Cache

/-- A call of `get_layer_bytes`. The value of the barrier that it made is the last argument of
`done` and of `cancelled`. -/
inductive Call where
  /-- The file is about to be read; the barrier is locked and empty. -/
  | looking (n : LayerName)
  /-- The file was read; the barrier is locked and set. -/
  | found (n : LayerName) (r : Out Bytes)
  /-- The call waits for the barrier of another. -/
  | waiting (n : LayerName) (on : Nat)
  /-- The call returned. -/
  | done (n : LayerName) (r : Out Bytes) (barrier : Option (Out Bytes))
  /-- The future was dropped. -/
  | cancelled (n : LayerName) (barrier : Option (Out Bytes))
deriving DecidableEq, Repr

/-- The barrier of a call: `none` if it is locked, then what was set. -/
def Call.barrier : Call → Option (Option (Out Bytes))
  | .looking _ => none
  | .found _ _ => none
  | .waiting _ _ => some none
  | .done _ _ v => some v
  | .cancelled _ v => some v

end Lru

/-- `LruArchiveBackend` (src/storage/archive.rs:355-362) with its directory and the calls. The
field `current` is set to 0 by `new` (line 387) and never changed. The limit is in bytes
(`limit_bytes`, lines 393-395). -/
structure LruArch where
  disk : ArchDir := {}
  /-- The layers that are being written, with the bytes that are still to come. -/
  writing : List (LayerName × Bytes) := []
  cache : Lru.Cache := []
  limit : Nat
  current : Nat := 0
  calls : List Lru.Call := []

namespace LruArch

open Lru

/-- The first part of `get_layer_bytes` (src/storage/archive.rs:469-490). -/
def start (s : LruArch) (n : LayerName) : LruArch :=
  match s.cache.peek n with
  | some (.resolved b) =>
    { s with cache := s.cache.promote n, calls := s.calls ++ [.done n (.ok b) none] }
  | some (.resolving t) =>
    { s with cache := s.cache.promote n, calls := s.calls ++ [.waiting n t] }
  | none =>
    { s with cache := s.cache.getOrInsert n (.resolving s.calls.length),
             calls := s.calls ++ [.looking n] }

/-- Reading the file (src/storage/archive.rs:491-493). -/
def look (s : LruArch) (t : Nat) (n : LayerName) : LruArch :=
  { s with calls := s.calls.set t (.found n (s.disk.getLayerBytes n)) }

/-- The last part of `get_layer_bytes` (src/storage/archive.rs:495-520). -/
def finish (s : LruArch) (t : Nat) (n : LayerName) (r : Out Bytes) : LruArch :=
  match r with
  | .ok b =>
    match s.cache.ensureEnough s.limit s.current b.length with
    | none => { s with calls := s.calls.set t (.done n .panic (some r)) }
    | some (some c) =>
      match c.peek n with
      | none => { s with cache := c, calls := s.calls.set t (.done n .panic (some r)) }
      | some _ =>
        { s with cache := c.setMut n (.resolved b), calls := s.calls.set t (.done n r (some r)) }
    | some none =>
      match s.cache.drop n with
      | none => { s with calls := s.calls.set t (.done n .panic (some r)) }
      | some c => { s with cache := c, calls := s.calls.set t (.done n r (some r)) }
  | _ =>
    match s.cache.drop n with
    | none => { s with calls := s.calls.set t (.done n .panic (some r)) }
    | some c => { s with cache := c, calls := s.calls.set t (.done n r (some r)) }

/-- What a call that waited returns (src/storage/archive.rs:477-481): an empty barrier is a
panic. -/
def woken : Option (Out Bytes) → Out Bytes
  | none => .panic
  | some r => r

/-- Waiting ends (src/storage/archive.rs:477-481). -/
def wake (s : LruArch) (t : Nat) (n : LayerName) (v : Option (Out Bytes)) : LruArch :=
  { s with calls := s.calls.set t (.done n (woken v) none) }

/-- `store_layer_file` makes the file (src/storage/archive.rs:167-175, 540). -/
def storeOpen (s : LruArch) (n : LayerName) (b : Bytes) : LruArch :=
  { s with disk := s.disk.storeLayerFile n [], writing := (n, b) :: s.writing }

/-- It writes up to `k + 1` more bytes (src/storage/archive.rs:176-181). -/
def storeWrite (s : LruArch) (n : LayerName) (rest : Bytes) (k : Nat) : LruArch :=
  { s with
    disk := s.disk.storeLayerFile n ((s.disk.file n).getD [] ++ rest.take (k + 1))
    writing := (n, rest.drop (k + 1)) :: s.writing.filter (fun q => q.1 ≠ n) }

/-- Everything is written (src/storage/archive.rs:183-196). -/
def storeEnd (s : LruArch) (n : LayerName) : LruArch :=
  { s with writing := s.writing.filter (fun q => q.1 ≠ n) }

/-- Putting it into the cache (src/storage/archive.rs:542-543). -/
def storeCache (s : LruArch) (n : LayerName) (b : Bytes) : LruArch :=
  { s with cache := s.cache.getOrInsert n (.resolved b) }

/-- `set_rollup` (src/storage/archive.rs:630-632). -/
def setRollup (s : LruArch) (n r : LayerName) : Out LruArch := do
  let d ← s.disk.setRollup n r
  return { s with disk := d }

/-! ### Metadata, src/storage/archive.rs:574-645 -/

/-- `layer_exists` (src/storage/archive.rs:580-586). -/
def layerExists (s : LruArch) (n : LayerName) : Bool :=
  match s.cache.peek n with
  | some (.resolved _) => true
  | _ => s.disk.layerExists n

/-- `layer_size` (src/storage/archive.rs:587-593). -/
def layerSize (s : LruArch) (n : LayerName) : Out Nat :=
  match s.cache.peek n with
  | some (.resolved b) => .ok b.length
  | _ => s.disk.layerSize n

/-- `layer_file_exists` (src/storage/archive.rs:594-601); `get_u64` on a short file panics. -/
def layerFileExists (s : LruArch) (n : LayerName) (k : FileKind) : Out Bool :=
  match s.cache.peek n with
  | some (.resolved b) => do
    let p ← Out.ofOption (getU64 b)
    return Presence.isPresent p.1 k
  | _ => s.disk.layerFileExists n k

/-- `get_layer_structure_size` (src/storage/archive.rs:602-626). -/
def getStructureSize (c : OffsetCodec) (s : LruArch) (n : LayerName) (k : FileKind) : Out Nat :=
  match s.cache.peek n with
  | some (.resolved b) => do
    let h ← ArchiveHeader.parse c b
    let r ← h.1.sizeOf k
    ArchiveHeader.orErr r
  | _ => s.disk.getStructureSize c n k

/-- `get_rollup` (src/storage/archive.rs:627-629). -/
def getRollup (s : LruArch) (n : LayerName) : Out (Option LayerName) := s.disk.getRollup n

/-- `layer_fits_in_cache` (src/storage/archive.rs:399-402), with the size it was given. -/
def fits (limit : Nat) (size : Out Nat) : Out Bool := do
  let z ← size
  return decide (limit ≠ 0 ∧ z ≤ limit)

/-- `get_layer_structure_bytes` (src/storage/archive.rs:524-538), with what its calls of
`layer_size`, of `get_layer_bytes` and of the origin return. -/
def structureBytes (c : OffsetCodec) (limit : Nat) (size : Out Nat) (bytes : Out Bytes)
    (origin : Out (Option Bytes)) (k : FileKind) : Out (Option Bytes) := do
  let f ← fits limit size
  match f with
  | true => do
    let b ← bytes
    Archive.sliceFor c b k
  | false => origin

/-- `read_layer_structure_bytes_from` (src/storage/archive.rs:547-570), with what its calls of
`layer_size`, of `get_layer_structure_bytes` and of the origin return; `Bytes::advance` past
the end panics. -/
def readFrom (limit : Nat) (size : Out Nat) (bytes : Out (Option Bytes))
    (origin : Out SliceReader) (off : Nat) : Out (Bytes ⊕ SliceReader) := do
  let f ← fits limit size
  match f with
  | true => do
    let b ← bytes
    let b ← ArchiveHeader.orErr b
    if b.length < off then .panic else .ok (.inl (b.drop off))
  | false => do
    let r ← origin
    return .inr r

/-- `get_parent` (src/storage/archive.rs:634-644), with what its call of
`get_layer_structure_bytes` returns. -/
def getParent (bytes : Out (Option Bytes)) : Out (Option LayerName) := do
  let b ← bytes
  match b with
  | none => .ok none
  | some b => do
    let p ← ArchDir.parentName b
    return some p

/-- The number of bytes that the cache holds. -/
def held (s : LruArch) : Nat :=
  (s.cache.map (fun q => match q.2 with
    | .resolved b => b.length
    | .resolving _ => 0)).sum

end LruArch

/-! ### Histories -/

/-- What happened. -/
inductive LruEvent where
  /-- A call of `get_layer_bytes` began. -/
  | called (t : Nat) (n : LayerName)
  /-- It looked for the file and there was none. -/
  | missed (t : Nat) (n : LayerName)
  /-- It read the file while the file was being written. -/
  | torn (t : Nat) (n : LayerName)
  /-- It returned. -/
  | returned (t : Nat) (n : LayerName) (r : Out Bytes)
  /-- Somebody began to write the file of a layer, with these bytes. -/
  | began (n : LayerName) (b : Bytes)
  /-- The file of a layer was written. -/
  | stored (n : LayerName) (b : Bytes)
deriving DecidableEq, Repr

namespace LruArch

open Lru

/-- What is noted when a call returns at once. -/
def startLog (s : LruArch) (n : LayerName) (L : List LruEvent) : List LruEvent :=
  match s.cache.peek n with
  | some (.resolved b) => .returned s.calls.length n (.ok b) :: .called s.calls.length n :: L
  | _ => .called s.calls.length n :: L

/-- What is noted when a file is looked for. -/
def lookLog (s : LruArch) (t : Nat) (n : LayerName) (L : List LruEvent) : List LruEvent :=
  match s.disk.file n, s.writing.lookup n with
  | none, _ => .missed t n :: L
  | some _, some _ => .torn t n :: L
  | some _, none => L

/-- What a call returned. -/
def resultOf (s : LruArch) (t : Nat) : Out Bytes :=
  match s.calls[t]? with
  | some (.done _ r _) => r
  | _ => .panic

/-- The steps, with what is noted, the newest first. A layer is written at most once, which
`ArchiveLayerStore` sees to (src/storage/archive.rs:1383-1399). If `cancels` is false, no
future is dropped before its end. -/
inductive Step (cancels : Bool) : LruArch → List LruEvent → LruArch → List LruEvent → Prop
  | start {s L} (n : LayerName) : Step cancels s L (s.start n) (s.startLog n L)
  | look {s L t n} : s.calls[t]? = some (.looking n) →
      Step cancels s L (s.look t n) (s.lookLog t n L)
  | finish {s L t n r} : s.calls[t]? = some (.found n r) →
      Step cancels s L (s.finish t n r) (.returned t n ((s.finish t n r).resultOf t) :: L)
  | wake {s L t n on w v} : s.calls[t]? = some (.waiting n on) → s.calls[on]? = some w →
      w.barrier = some v → Step cancels s L (s.wake t n v) (.returned t n (woken v) :: L)
  | storeOpen {s L n} (b : Bytes) : s.disk.file n = none →
      Step cancels s L (s.storeOpen n b) (.began n b :: L)
  | storeWrite {s L n rest} (k : Nat) : s.writing.lookup n = some rest → rest ≠ [] →
      Step cancels s L (s.storeWrite n rest k) L
  | storeEnd {s L n b} : s.writing.lookup n = some [] → s.disk.file n = some b →
      Step cancels s L (s.storeEnd n) (.stored n b :: L)
  /-- The second part of storing; the file was written. -/
  | storeCache {s L n b} : s.disk.file n = some b → s.writing.lookup n = none →
      Step cancels s L (s.storeCache n b) L
  | setRollup {s s' L n r} : s.setRollup n r = .ok s' → Step cancels s L s' L
  | cancelLooking {s L t n} : cancels = true → s.calls[t]? = some (.looking n) →
      Step cancels s L { s with calls := s.calls.set t (.cancelled n none) } L
  | cancelFound {s L t n r} : cancels = true → s.calls[t]? = some (.found n r) →
      Step cancels s L { s with calls := s.calls.set t (.cancelled n (some r)) } L
  | cancelWaiting {s L t n on} : cancels = true → s.calls[t]? = some (.waiting n on) →
      Step cancels s L { s with calls := s.calls.set t (.cancelled n none) } L

/-- The states that a new backend on a given directory can come to. -/
inductive Run (cancels : Bool) (disk : ArchDir) (limit : Nat) : LruArch → List LruEvent → Prop
  | start : Run cancels disk limit { disk, limit } []
  | step {s L s' L'} : Run cancels disk limit s L → Step cancels s L s' L' →
      Run cancels disk limit s' L'

end LruArch

end Verif
