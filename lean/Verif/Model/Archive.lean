import Verif.Model.Files
import Verif.Model.Construction

/-!
Model of the file format of archived layers (src/storage/archive.rs:837-1043) and of the
reading side of `DirectoryArchiveBackend` (src/storage/archive.rs:125-222).

`Bytes` is a list. A `u64` is a natural number; the only one that is written is made of bits
below 64. The array of offsets is written and read by an external crate, which is a parameter
here, `OffsetCodec`.
-/

namespace Verif

/-- `BufMut::put_u64`: eight bytes, the highest first. -/
def putU64 (n : Nat) : Bytes :=
  [n / 2 ^ 56 % 256, n / 2 ^ 48 % 256, n / 2 ^ 40 % 256, n / 2 ^ 32 % 256,
   n / 2 ^ 24 % 256, n / 2 ^ 16 % 256, n / 2 ^ 8 % 256, n % 256]

/-- `Buf::get_u64`, with what follows; `none` if there are fewer than eight bytes. -/
def getU64 : Bytes → Option (Nat × Bytes)
  | a :: b :: c :: d :: e :: f :: g :: h :: r =>
    some (a * 2 ^ 56 + b * 2 ^ 48 + c * 2 ^ 40 + d * 2 ^ 32 + e * 2 ^ 24 + f * 2 ^ 16 + g * 2 ^ 8 + h,
      r)
  | _ => none

/-- Reading a given number of bytes, with what follows; `none` if there are too few. -/
def readExact (n : Nat) (b : Bytes) : Option (Bytes × Bytes) :=
  if b.length < n then none else some (b.take n, b.drop n)

/-- The external code for arrays of offsets: `LateLogArrayBufBuilder` with
`finalize_header_first`, `MonotonicLogArray::parse_header_first`,
`logarray_length_from_control_word` (crate tdb-succinct), and what is assumed of it for
arrays of up to 50 numbers below `2 ^ 64`. -/
structure OffsetCodec where
  /-- `finalize_header_first`. -/
  enc : List Nat → Bytes
  /-- `parse_header_first`; `none` is an error. -/
  dec : Bytes → Option (List Nat × Bytes)
  /-- `logarray_length_from_control_word`. -/
  bodyLen : Bytes → Nat
  /-- What was written is read, up to its end. -/
  dec_enc : ∀ xs r, xs.length ≤ 50 → (∀ x ∈ xs, x < 2 ^ 64) → dec (enc xs ++ r) = some (xs, r)
  /-- The control word comes first. -/
  eight : ∀ xs, xs.length ≤ 50 → (∀ x ∈ xs, x < 2 ^ 64) → 8 ≤ (enc xs).length
  /-- It gives the length of the rest. -/
  bodyLen_enc : ∀ xs, xs.length ≤ 50 → (∀ x ∈ xs, x < 2 ^ 64) →
    bodyLen ((enc xs).take 8) = (enc xs).length - 8

/-! ### The presence header -/

namespace Presence

/-- `from_present` (src/storage/archive.rs:849-857). -/
def fromPresent (ks : List FileKind) : Nat := ks.foldl (fun v k => v ||| 1 <<< (64 - k.val - 1)) 0

/-- `is_present` (src/storage/archive.rs:859-861): `SmallBitArray::get` (external crate) counts
bits from the highest. -/
def isPresent (v : Nat) (k : Nat) : Bool := v.testBit (63 - k)

/-- `SmallBitArray::rank1` (external crate): the number of bits set up to and including the
given one. -/
def rank1 (v k : Nat) : Nat := ((List.range (k + 1)).filter (isPresent v)).length

/-- `file_index` (src/storage/archive.rs:867-873). -/
def fileIndex (v : Nat) (k : FileKind) : Option Nat :=
  if isPresent v k = false then none else some (rank1 v k - 1)

end Presence

/-! ### The header -/

/-- `ArchiveHeader` (src/storage/archive.rs:876-880). -/
structure ArchiveHeader where
  presence : Nat
  offsets : List Nat
deriving DecidableEq, Repr

namespace ArchiveHeader

/-- `ArchiveHeader::parse` (src/storage/archive.rs:883-895), with what follows the header. -/
def parse (c : OffsetCodec) (b : Bytes) : Out (ArchiveHeader × Bytes) := do
  let p ← Out.ofOption (getU64 b)
  let o ← Out.ofOption (c.dec p.2)
  return (⟨p.1, o.1⟩, o.2)

/-- A failed read is an error. -/
def orErr {α : Type} : Option α → Out α
  | some a => .ok a
  | none => .err

/-- `ArchiveHeader::parse_from_reader` (src/storage/archive.rs:897-916), with the rest of the
file. -/
def parseFromReader (c : OffsetCodec) (b : Bytes) : Out (ArchiveHeader × Bytes) := do
  let p ← orErr (getU64 b)
  let w ← orErr (readExact 8 p.2)
  let d ← orErr (readExact (c.bodyLen w.1) w.2)
  let o ← Out.ofOption (c.dec (w.1 ++ d.1))
  return (⟨p.1, o.1⟩, d.2)

/-- `file_offsets.entry(i)`: an index out of range is a panic. -/
def entry (h : ArchiveHeader) (i : Nat) : Out Nat := Out.ofOption h.offsets[i]?

/-- The start of the file with the given index (src/storage/archive.rs:920-924). -/
def start (h : ArchiveHeader) (i : Nat) : Out Nat := if i = 0 then .ok 0 else h.entry (i - 1)

/-- `range_for` (src/storage/archive.rs:918-932): start and end. -/
def rangeFor (h : ArchiveHeader) (k : FileKind) : Out (Option (Nat × Nat)) :=
  match Presence.fileIndex h.presence k with
  | none => .ok none
  | some i => do
    let s ← h.start i
    let e ← h.entry i
    return some (s, e)

/-- `size_of` (src/storage/archive.rs:934-936): a negative difference is a panic. -/
def sizeOf (h : ArchiveHeader) (k : FileKind) : Out (Option Nat) := do
  let r ← h.rangeFor k
  match r with
  | none => .ok none
  | some (s, e) => if e < s then .panic else .ok (some (e - s))

end ArchiveHeader

/-! ### Archives in memory -/

namespace Archive

/-- `Bytes::slice`: a bad range is a panic. -/
def slice (b : Bytes) (s e : Nat) : Out Bytes :=
  if s ≤ e ∧ e ≤ b.length then .ok ((b.drop s).take (e - s)) else .panic

/-- `Archive::parse` and `slice_for` (src/storage/archive.rs:945-949, 965-969). -/
def sliceFor (c : OffsetCodec) (b : Bytes) (k : FileKind) : Out (Option Bytes) := do
  let h ← ArchiveHeader.parse c b
  let r ← h.1.rangeFor k
  match r with
  | none => .ok none
  | some (s, e) => do
    let x ← slice h.2 s e
    return some x

end Archive

/-! ### Writing -/

namespace Archive

/-- Put a file at its place (helper of `sortFiles`). -/
def insertFile (q : FileKind × Bytes) : List (FileKind × Bytes) → List (FileKind × Bytes)
  | [] => [q]
  | r :: l => if q.1 ≤ r.1 then q :: r :: l else r :: insertFile q l

/-- `files.sort()` (src/storage/archive.rs:1481). No kind is there twice, so the contents do
not matter. -/
def sortFiles : List (FileKind × Bytes) → List (FileKind × Bytes)
  | [] => []
  | q :: l => insertFile q (sortFiles l)

/-- The ends of the files (src/storage/archive.rs:1485-1490); `tally` is the sum so far. -/
def ends : Nat → List Bytes → List Nat
  | _, [] => []
  | tally, d :: ds => (tally + d.length) :: ends (tally + d.length) ds

/-- The bytes that `finalize` stores (src/storage/archive.rs:1476-1500). -/
def encode (c : OffsetCodec) (files : List (FileKind × Bytes)) : Bytes :=
  putU64 (Presence.fromPresent ((sortFiles files).map (·.1))) ++
    c.enc (ends 0 ((sortFiles files).map (·.2))) ++ ((sortFiles files).map (·.2)).flatten

end Archive

/-! ### Reading a part of an archive file -/

/-- `ArchiveSliceReader` (src/storage/archive.rs:1000-1003): the rest of the archive file from
the current position, and the number of bytes to give out. -/
structure SliceReader where
  rest : Bytes
  remaining : Nat
deriving DecidableEq, Repr

/-- `ArchiveSliceReader::poll_read` (src/storage/archive.rs:1016-1042) when the read of the
file gives `got` bytes. The space of the buffer past the end of the slice is given back. -/
def SliceReader.read (r : SliceReader) (got : Nat) : Bytes × SliceReader :=
  if r.remaining = 0 then ([], r)
  else
    let filled := r.rest.take got
    if filled.length > r.remaining then
      (filled.take r.remaining, ⟨r.rest.drop got, 0⟩)
    else (filled, ⟨r.rest.drop got, r.remaining - filled.length⟩)

/-- How many bytes a read of a file into a buffer of the given size can give: any number that
fits, but none only if there is no space or nothing left. -/
def FileGives (rest : Bytes) (cap got : Nat) : Prop :=
  got ≤ cap ∧ got ≤ rest.length ∧ (got = 0 → cap = 0 ∨ rest = [])

/-- Reading again and again: each buffer size with what was read into it. -/
inductive SliceReader.Reads : SliceReader → List (Nat × Bytes) → Prop
  | nil {r : SliceReader} : Reads r []
  | cons {r : SliceReader} {cap got : Nat} {tr : List (Nat × Bytes)} :
      FileGives r.rest cap got → Reads (r.read got).2 tr → Reads r ((cap, (r.read got).1) :: tr)

end Verif
