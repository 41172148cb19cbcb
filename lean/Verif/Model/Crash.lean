import Verif.Model.World
import Verif.Model.Form
import Verif.Model.Text
import Verif.Model.Files

/-!
Model of the directory store with its files: the layers are written to disk file by file and
piece by piece, the process may stop at any moment, and what is there then is read by a new
process.

`World` (Model/World.lean) is the store in which a layer appears all at once. Here its steps are
spread over the writes to the files. Names are numbers below 2^160 (`[u32; 5]`).
-/

namespace Verif

variable {K V : Type}

/-! ### Names as numbers -/

/-- The number of a layer name. -/
def LayerName.num (n : LayerName) : Name :=
  (((n.a.val * 2 ^ 32 + n.b.val) * 2 ^ 32 + n.c.val) * 2 ^ 32 + n.d.val) * 2 ^ 32 + n.e.val

/-- One of the five parts of a name. -/
def u32 (n : Nat) : U32 := ⟨n % 2 ^ 32, Nat.mod_lt _ (Nat.two_pow_pos 32)⟩

/-- The layer name with this number. -/
def layerName (n : Name) : LayerName :=
  ⟨u32 (n / 2 ^ 128), u32 (n / 2 ^ 96), u32 (n / 2 ^ 64), u32 (n / 2 ^ 32), u32 n⟩

/-- How many layer names there are. -/
def nameLimit : Nat := 2 ^ 160

/-! ### The files of a layer -/

/-- How the contents of a layer are written to its files and read from them, without the parent
file and the rollup file (src/layer/internal/base.rs:38-125, src/layer/internal/child.rs:64-197 and the
builders there). The files are made by tdb-succinct; what is assumed is that files that were
written completely are read back; `Coder.codec` in Verif/Lemmas/LayerCodec.lean shows this from what
is assumed of the single files. The parent counts are not in the files. `child` tells whether the
layer is written and read as a child layer. -/
structure LayerCodec (K V : Type) [LinearOrder K] [LinearOrder V] where
  files : Bool → LayerData K V → FileKind → Option Bytes
  read : Bool → (FileKind → Option Bytes) → Out (LayerData K V)
  read_files : ∀ {d : LayerData K V} {S : List (LayerData K V)}, Reachable (d :: S) →
    (S = [] → d.BaseForm) → (S ≠ [] → d.ChildForm) → ∀ g : FileKind → Option Bytes,
      (∀ k, k ≠ FileKind.parent → k ≠ FileKind.rollup → g k = files (!S.isEmpty) d k) →
      ∃ d', read (!S.isEmpty) g = .ok d' ∧ ∀ T, d'.onTop T = d.onTop T

/-- The directory of the store (src/storage/directory.rs:18-115): which layer directories there
are, and the contents of the files in them. A file is given by its kind: the file names of
src/storage/consts.rs:161-258 that a layer of one form can have are of different kinds
(`LayerFiles.kind_inj`). -/
structure Disk where
  dir : Name → Bool := fun _ => false
  file : Name → FileKind → Option Bytes := fun _ _ => none

namespace Disk

/-- Make a directory (src/storage/directory.rs:53-62). -/
def mkdir (D : Disk) (n : Name) : Disk := { D with dir := fun m => if m = n then true else D.dir m }

/-- The contents of a file become `b`. -/
def put (D : Disk) (n : Name) (k : FileKind) (b : Bytes) : Disk :=
  { D with file := fun m j => if m = n ∧ j = k then some b else D.file m j }

/-- `layer_has_parent` and then `read_parent_file` (src/storage/layer.rs:377-379, 666-675). -/
def parent (D : Disk) (n : Name) : Out (Option Name) :=
  match D.file n FileKind.parent with
  | none => .ok none
  | some b => do
    let p ← readParentFile b
    return some p.num

/-- `layer_has_rollup` and then `read_rollup_file` (src/storage/layer.rs:373-375, 692-715). -/
def rollup (D : Disk) (n : Name) : Out (Option Name) :=
  match D.file n FileKind.rollup with
  | none => .ok none
  | some b => do
    let r ← readRollupFile b
    return some r.num

/-- `layer_parent` (src/storage/layer.rs:381-395). -/
def layerParent (D : Disk) (n : Name) : Out (Option Name) :=
  if D.dir n then D.parent n else .err

/-- The loop of `get_layer_with_cache` that goes down to the base layer, with an empty cache
(src/storage/layer.rs:1449-1520). The list is `layers_to_load` with its last element first. -/
def find (D : Disk) : Nat → List Store.Pending → Out (List Store.Pending)
  | 0, _ => .panic
  | _, [] => .panic
  | f + 1, q :: rest => do
    match ← D.rollup q.current with
    | some r =>
      if r = q.current then .panic
      else do
        let p ← D.parent q.current
        find D f ((q.current, some (r, p)) :: rest)
    | none =>
      match ← D.parent q.current with
      | some p => find D f ((p, none) :: q :: rest)
      | none => .ok (q :: rest)

variable [LinearOrder K] [LinearOrder V]

/-- Load the base layer of the list (src/storage/layer.rs:1522-1556). -/
def loadBase (c : LayerCodec K V) (D : Disk) : Store.Pending → Out (InternalLayer K V)
  | (n, none) => do
    let d ← c.read false (D.file n)
    return .base n (d.onTop [])
  | (n, some (r, op)) => do
    let d ← c.read false (D.file r)
    return .rollup (.base r (d.onTop [])) n op

/-- Load one child layer (src/storage/layer.rs:1561-1588). -/
def loadChild (c : LayerCodec K V) (D : Disk) (anc : InternalLayer K V) :
    Store.Pending → Out (InternalLayer K V)
  | (n, none) => do
    let d ← c.read true (D.file n)
    return .child n (d.onTop anc.stack) anc
  | (n, some (r, op)) =>
    match op with
    | none => .panic
    | some p => do
      let d ← c.read true (D.file r)
      return .rollup (.child r (d.onTop anc.stack) anc) n (some p)

/-- Load all child layers of the list (src/storage/layer.rs:1558-1592). -/
def loadChildren (c : LayerCodec K V) (D : Disk) :
    InternalLayer K V → List Store.Pending → Out (InternalLayer K V)
  | anc, [] => .ok anc
  | anc, q :: qs => do
    let l ← loadChild c D anc q
    loadChildren c D l qs

/-- `get_layer_with_cache` (src/storage/layer.rs:1433-1597) in a new process, in which nothing is
cached and nothing else is running. `f` bounds the number of rounds. -/
def getLayer (c : LayerCodec K V) (D : Disk) (f : Nat) (n : Name) :
    Out (Option (InternalLayer K V)) :=
  if D.dir n then do
    match ← D.find f [(n, none)] with
    | [] => .panic
    | q :: qs => do
      let b ← loadBase c D q
      let l ← loadChildren c D b qs
      return some l
  else .ok none

end Disk

/-! ### The process -/

section
variable [LinearOrder K] [LinearOrder V]

/-- The files that are written for a new layer: its contents, and the parent file for a child
layer (src/storage/layer.rs:717-737). -/
def target (c : LayerCodec K V) (e : Entry K V) (k : FileKind) : Option Bytes :=
  if k = FileKind.parent then e.parent.map (fun p => parentFile (layerName p))
  else if k = FileKind.rollup then none
  else c.files e.parent.isSome e.data k

/-- A rollup file that is being written: of which layer, for which rollup, and what was in the
file when it was opened. -/
structure Registering where
  layer : Name
  rollup : Name
  old : Bytes

/-- What `write_rollup_file` writes (src/storage/layer.rs:677-690). -/
def Registering.contents (g : Registering) : Bytes := rollupFile (layerName g.rollup)

/-- The contents of the file when `k` bytes have been written. -/
def Registering.part (g : Registering) (k : Nat) : Bytes := g.contents.take k ++ g.old.drop k

/-- A process that works on a store in a directory. -/
structure Proc (K V : Type) where
  /-- What the store is for its users. -/
  world : World K V := {}
  disk : Disk := {}
  /-- The layers that are being written. -/
  building : List (Name × Entry K V) := []
  /-- The rollup files that are being written. -/
  registering : List Registering := []
  /-- The layers of which the writing of a rollup file was cut off, and not repeated. -/
  cut : List Name := []
  /-- The layers that labels were set to. -/
  heads : List Name := []

namespace Proc

/-- The steps of the process. `trunc` tells whether opening a file for writing truncates it
(`FileBackedStore` of tdb-succinct). Two tasks do not write the same rollup file at the same
time. -/
inductive Step (c : LayerCodec K V) (trunc : Bool) : Proc K V → Proc K V → Prop
  /-- A step of a task that does not change the files: loads, decisions, the cache. -/
  | memory {p w'} : World.Step true p.world w' → w'.store = p.world.store →
      Step c trunc p { p with world := w' }
  /-- `create_directory` (src/storage/layer.rs:360-363) for a layer that is going to have the
  contents `e`. The name is new. -/
  | mkdir {p new e} : p.disk.dir new = false → new < nameLimit →
      Step c trunc p { p with disk := p.disk.mkdir new, building := (new, e) :: p.building }
  /-- A file of a new layer is created. -/
  | create {p new e k b} : (new, e) ∈ p.building → target c e k = some b →
      p.disk.file new k = none → Step c trunc p { p with disk := p.disk.put new k [] }
  /-- More of a file of a new layer is written. The files are written at the same time. -/
  | write {p new e k b i j} : (new, e) ∈ p.building → target c e k = some b → i ≤ j →
      p.disk.file new k = some (b.take i) →
      Step c trunc p { p with disk := p.disk.put new k (b.take j) }
  /-- All files of a new layer are written, and `finalize` returns
  (src/storage/directory.rs:97-114). -/
  | finish {p new e w'} : (new, e) ∈ p.building →
      (∀ k, p.disk.file new k = target c e k) → World.Step true p.world w' →
      w'.store = (new, e) :: p.world.store →
      Step c trunc p { p with world := w'
                              building := p.building.filter (fun q => q.1 ≠ new) }
  /-- `register_rollup` opens the file (src/storage/layer.rs:1822-1829, 680-681). -/
  | openRollup {p n r old} : (n, r) ∈ p.world.pending → n ≠ r →
      (∀ g ∈ p.registering, g.layer ≠ n) →
      old = (if trunc then [] else (p.disk.file n FileKind.rollup).getD []) →
      Step c trunc p { p with disk := p.disk.put n FileKind.rollup old
                              registering := ⟨n, r, old⟩ :: p.registering }
  /-- A part of the file is written (src/storage/layer.rs:683-684), but not all of the name. -/
  | writeRollup {p g i} : g ∈ p.registering → i + 1 < g.contents.length →
      Step c trunc p { p with disk := p.disk.put g.layer FileKind.rollup (g.part i) }
  /-- The last part of the file is written, with or without the end of the line. -/
  | finishRollup {p g w' i} : g ∈ p.registering → g.contents.length ≤ i + 1 →
      World.Step true p.world w' →
      w'.store = Store.registerRollup p.world.store g.layer g.rollup →
      Step c trunc p { p with
        world := w'
        disk := p.disk.put g.layer FileKind.rollup (g.part i)
        registering := p.registering.filter (fun q => q.layer ≠ g.layer)
        cut := p.cut.filter (· ≠ g.layer) }
  /-- A label is set to a layer (`set_head`, `force_set_head`, src/store/mod.rs:735-792): the caller has
  the layer. -/
  | setHead {p n l} : (n, l) ∈ p.world.held →
      Step c trunc p { p with heads := l.name :: p.heads }
  /-- The process stops, and another one is started: the files stay as they are, the cache is
  empty, nothing is being written any more. What the tasks had in hand is kept, which allows
  more than can happen. -/
  | crash {p} : Step c trunc p { p with
      world := { p.world with cache := Store.noCache, past := p.world.seen }
      building := []
      registering := []
      cut := p.registering.map (·.layer) ++ p.cut }

/-- The states that are reached from an empty directory, with any number of crashes. -/
inductive Run (c : LayerCodec K V) (trunc : Bool) : Proc K V → Prop
  | start : Run c trunc {}
  | step {p p'} : Run c trunc p → Step c trunc p p' → Run c trunc p'

/-- The states that can follow a state. -/
inductive Later (c : LayerCodec K V) (trunc : Bool) (p : Proc K V) : Proc K V → Prop
  | now : Later c trunc p p
  | step {p' p''} : Later c trunc p p' → Step c trunc p' p'' → Later c trunc p p''

end Proc

end

end Verif
