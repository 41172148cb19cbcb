import Verif.Model.ArchiveStore

/-!
What is expected of files: specification of reading and of writing.
-/

namespace Verif.FileSpec

/-- A sequence of reads, each a buffer size with what was read into it, that follows the
contents of a file: what was read is a beginning of the contents, no read gives more than
fits, and a read gives nothing only into an empty buffer or at the end of the contents. -/
def Follows (content : Bytes) (trace : List (Nat × Bytes)) : Prop :=
  (trace.map (·.2)).flatten <+: content ∧
  ∀ pre cap out post, trace = pre ++ (cap, out) :: post →
    out.length ≤ cap ∧ (out = [] → cap = 0 ∨ (pre.map (·.2)).flatten = content)

/-- What was written by a sequence of calls before the first sync. -/
def written : List CFile.Op → Bytes
  | [] => []
  | .sync :: _ => []
  | .write buf :: ops => buf ++ written ops
  | _ :: ops => written ops

/-- What a call must return after the calls `before` on a new file. -/
def expected (before : List CFile.Op) (op : CFile.Op) : CFile.Res → Prop :=
  if .sync ∈ before then
    match op with
    | .write _ => (· = .failed)
    | .flush => (· = .done)
    | .shutdown => (· = .done)
    | .sync => (· = .failed)
    | .exists => (· = .yes)
    | .size => (· = .size (written before).length)
    | .map => (· = .bytes (written before))
    | .openReadFrom off => fun r =>
      if off ≤ (written before).length then
        ∃ f, r = .reader f ∧ ∀ caps, (f.reads caps).map (·.1) = caps ∧
          Follows ((written before).drop off) (f.reads caps)
      else r = .failed
  else
    match op with
    | .write buf => (· = .wrote buf.length)
    | .flush => (· = .done)
    | .shutdown => (· = .done)
    | .sync => (· = .done)
    | .exists => (· = .no)
    | .size => (· = .failed)
    | .map => (· = .failed)
    | .openReadFrom _ => (· = .failed)

/-! ### Archived layers

Histories have the newest event first. -/

/-- The writes and syncs of a file in a history, the oldest first. -/
def opsOf (h : Nat) : List ArchEvent → List CFile.Op
  | [] => []
  | .wrote h' buf :: L => if h' = h then opsOf h L ++ [.write buf] else opsOf h L
  | .synced h' :: L => if h' = h then opsOf h L ++ [.sync] else opsOf h L
  | _ :: L => opsOf h L

/-- The file that was opened for a layer and a kind. -/
def openedAs (n : LayerName) (k : FileKind) : List ArchEvent → Option Nat
  | [] => none
  | .opened n' k' h :: L => if n' = n ∧ k' = k then some h else openedAs n k L
  | _ :: L => openedAs n k L

/-- The history before a layer was finalized. -/
def beforeFinal (n : LayerName) : List ArchEvent → Option (List ArchEvent)
  | [] => none
  | .finalized n' :: L => if n' = n then some L else beforeFinal n L
  | _ :: L => beforeFinal n L

/-- The contents that a file of a finalized layer must have: what was written to the file
before its first sync, if it was synced before the layer was finalized. -/
def stored (L : List ArchEvent) (n : LayerName) (k : FileKind) : Option Bytes :=
  match beforeFinal n L with
  | none => none
  | some L₁ =>
    match openedAs n k L₁ with
    | none => none
    | some h => if .sync ∈ opsOf h L₁ then some (written (opsOf h L₁)) else none

/-- The rollup that was registered last. -/
def rollupOf (n : LayerName) : List ArchEvent → Option LayerName
  | [] => none
  | .rolled n' r :: L => if n' = n then some r else rollupOf n L
  | _ :: L => rollupOf n L

end Verif.FileSpec
