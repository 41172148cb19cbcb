import Verif.Model.Out

/-!
Model of the text forms of layer names, labels, parent files and rollup files
(src/storage/layer.rs, src/storage/directory.rs), with the parts of the standard
library they use.

A text is the list of its code points, a byte string the list of its bytes.
-/

namespace Verif

/-- A Rust string: its code points. -/
abbrev Text := List Nat

/-- A byte string. -/
abbrev Bytes := List Nat

namespace Text

/-- The number of bytes of a code point in UTF-8. -/
def charLen (c : Nat) : Nat :=
  if c < 0x80 then 1 else if c < 0x800 then 2 else if c < 0x10000 then 3 else 4

/-- `str::len`: the number of bytes. -/
def len (t : Text) : Nat := (t.map charLen).sum

/-- `&s[..n]` and `&s[n..]`: an index inside a code point or past the end is a panic. -/
def split : Text → Nat → Out (Text × Text)
  | [], n => if n = 0 then .ok ([], []) else .panic
  | c :: t, n =>
    if n = 0 then .ok ([], c :: t)
    else if charLen c ≤ n then do
      let r ← split t (n - charLen c)
      return (c :: r.1, r.2)
    else .panic

/-- Put a character in front of the first line. -/
def consLine (c : Nat) : List Text → List Text
  | [] => [[c]]
  | l :: ls => (c :: l) :: ls

/-- `str::lines`: lines end with a line feed or with a carriage return and a line feed; the
last line need not have an end. -/
def lines : Text → List Text
  | [] => []
  | 13 :: 10 :: t => [] :: lines t
  | 10 :: t => [] :: lines t
  | c :: t => consLine c (lines t)

end Text

/-! ### Lossy decoding -/

/-- What a decoder has read of a code point: the number of bytes to come, the range of the
next one, the value so far. -/
abbrev Utf8State := Option (Nat × Nat × Nat × Nat)

/-- The first byte of a code point. -/
def utf8Start (b : Nat) : Text × Utf8State :=
  if b < 0x80 then ([b], none)
  else if 0xC2 ≤ b ∧ b ≤ 0xDF then ([], some (1, 0x80, 0xBF, b - 0xC0))
  else if b = 0xE0 then ([], some (2, 0xA0, 0xBF, 0))
  else if b = 0xED then ([], some (2, 0x80, 0x9F, 0xD))
  else if 0xE1 ≤ b ∧ b ≤ 0xEF then ([], some (2, 0x80, 0xBF, b - 0xE0))
  else if b = 0xF0 then ([], some (3, 0x90, 0xBF, 0))
  else if 0xF1 ≤ b ∧ b ≤ 0xF3 then ([], some (3, 0x80, 0xBF, b - 0xF0))
  else if b = 0xF4 then ([], some (3, 0x80, 0x8F, 4))
  else ([0xFFFD], none)

/-- The loop of `String::from_utf8_lossy`: each maximal beginning of a code point that is
not continued is replaced by U+FFFD. -/
def utf8Go : Utf8State → Bytes → Text
  | none, [] => []
  | some _, [] => [0xFFFD]
  | none, b :: t => (utf8Start b).1 ++ utf8Go (utf8Start b).2 t
  | some (need, lo, hi, acc), b :: t =>
    if lo ≤ b ∧ b ≤ hi then
      if need ≤ 1 then (acc * 64 + (b - 0x80)) :: utf8Go none t
      else utf8Go (some (need - 1, 0x80, 0xBF, acc * 64 + (b - 0x80))) t
    else 0xFFFD :: ((utf8Start b).1 ++ utf8Go (utf8Start b).2 t)

/-- `String::from_utf8_lossy` (standard library, used at src/storage/directory.rs:129,
src/storage/layer.rs:699, 1419). -/
def utf8Lossy (b : Bytes) : Text := utf8Go none b

/-! ### Numbers -/

/-- `char::to_digit`. -/
def digitVal (radix c : Nat) : Option Nat :=
  let d :=
    if 48 ≤ c ∧ c ≤ 57 then some (c - 48)
    else if 97 ≤ c ∧ c ≤ 122 then some (c - 87)
    else if 65 ≤ c ∧ c ≤ 90 then some (c - 55)
    else none
  d.bind (fun v => if v < radix then some v else none)

/-- The loop of `from_str_radix` for numbers below `max`: overflow is an error. -/
def parseDigits (radix max : Nat) : Nat → Text → Option Nat
  | acc, [] => some acc
  | acc, c :: t =>
    match digitVal radix c with
    | none => none
    | some d => if acc * radix + d < max then parseDigits radix max (acc * radix + d) t else none

/-- `u32::from_str_radix` and `u64::from_str_radix` (standard library): an empty text is an
error, a leading plus sign is skipped. -/
def fromStrRadix (radix max : Nat) : Text → Option Nat
  | [] => none
  | c :: t => if c = 43 ∧ t ≠ [] then parseDigits radix max 0 t else parseDigits radix max 0 (c :: t)

/-- The character of a digit, lower case. -/
def digitChar (d : Nat) : Nat := if d < 10 then 48 + d else 87 + d

/-- `{:0wx}` for a number of at most `w` digits. -/
def hexText : Nat → Nat → Text
  | 0, _ => []
  | w + 1, n => hexText w (n / 16) ++ [digitChar (n % 16)]

/-- `{}` for a number; the first argument is a bound on the number of digits. -/
def decLoop : Nat → Nat → Text
  | 0, _ => []
  | f + 1, n => if n < 10 then [digitChar n] else decLoop f (n / 10) ++ [digitChar (n % 10)]

/-- `{}` for a number. -/
def decText (n : Nat) : Text := decLoop (n + 1) n

/-! ### Layer names -/

/-- `u32`. -/
abbrev U32 := Fin (2 ^ 32)

/-- A layer name, `[u32; 5]`. -/
structure LayerName where
  a : U32
  b : U32
  c : U32
  d : U32
  e : U32
deriving DecidableEq, Repr

/-- `name_to_string` (src/storage/layer.rs:1387-1392). -/
def nameToString (n : LayerName) : Text :=
  hexText 8 n.a ++ hexText 8 n.b ++ hexText 8 n.c ++ hexText 8 n.d ++ hexText 8 n.e

/-- One of the five parts (src/storage/layer.rs:1401-1410): the slice may panic, a bad number
is an error. The rest is returned for the next part. -/
def namePart (t : Text) : Out (U32 × Text) := do
  let r ← Text.split t 8
  match fromStrRadix 16 (2 ^ 32) r.1 with
  | none => .err
  | some v => if h : v < 2 ^ 32 then .ok (⟨v, h⟩, r.2) else .err

/-- `string_to_name` (src/storage/layer.rs:1394-1413). -/
def stringToName (t : Text) : Out LayerName :=
  if t.len ≠ 40 then .err
  else do
    let a ← namePart t
    let b ← namePart a.2
    let c ← namePart b.2
    let d ← namePart c.2
    let e ← namePart d.2
    return ⟨a.1, b.1, c.1, d.1, e.1⟩

/-- `bytes_to_name` (src/storage/layer.rs:1415-1423). -/
def bytesToName (b : Bytes) : Out LayerName :=
  if b.length ≠ 40 then .err else stringToName (utf8Lossy b)

/-- What `write_parent_file` writes (src/storage/layer.rs:654-664). -/
def parentFile (n : LayerName) : Bytes := nameToString n

/-- `read_parent_file` on the contents of the file (src/storage/layer.rs:666-675):
`read_exact` fails on a shorter file and leaves the rest of a longer one. -/
def readParentFile (b : Bytes) : Out LayerName :=
  if b.length < 40 then .err else bytesToName (b.take 40)

/-- What `write_rollup_file` writes (src/storage/layer.rs:678-690). -/
def rollupFile (n : LayerName) : Bytes := decText 1 ++ [10] ++ nameToString n ++ [10]

/-- `read_rollup_file` on the contents of the file (src/storage/layer.rs:692-715). -/
def readRollupFile (b : Bytes) : Out LayerName :=
  match (utf8Lossy b).lines with
  | [_, l] => stringToName l
  | _ => .err

/-! ### Labels -/

/-- `Label` without its name (src/storage/label.rs:5-10). -/
structure LabelData (N : Type) where
  layer : Option N
  version : Nat
deriving DecidableEq, Repr

/-- The text of the layer in a label file: empty if there is none. -/
def layerText : Option LayerName → Text
  | none => []
  | some n => nameToString n

/-- What `set_label_option` writes (src/storage/directory.rs:264-269, 414-419) and, with
version 0 and no layer, `create_label` (src/storage/directory.rs:225, 379). -/
def labelFile (l : LabelData LayerName) : Bytes :=
  decText l.version ++ [10] ++ layerText l.layer ++ [10]

/-- `get_label_from_data` (src/storage/directory.rs:128-169). -/
def readLabelFile (b : Bytes) : Out (LabelData LayerName) :=
  match (utf8Lossy b).lines with
  | [v, l] =>
    match fromStrRadix 10 (2 ^ 64) v with
    | none => .err
    | some version =>
      if l = [] then .ok ⟨none, version⟩
      else do
        let n ← stringToName l
        return ⟨some n, version⟩
  | _ => .err

end Verif
