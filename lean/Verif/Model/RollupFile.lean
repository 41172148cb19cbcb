import Verif.Model.LockedRollups

/-!
The rollup files of a directory store (src/storage/layer.rs:373-375, 677-715 over
src/storage/directory.rs:64-95), one system call at a time, with any number of callers, also in
several processes. There are no locks. In `Verif/Model/Crash.lean` two tasks do not write the same
rollup file at the same time; here they do.
-/

namespace Verif

open Spec

namespace RollupFile

/-- Where a call is. -/
inductive Phase where
  /-- Nothing is done yet. -/
  | begun
  /-- The file is there and open (src/storage/layer.rs:373-375, 692-694). -/
  | opened
  /-- `read_to_end` has got these bytes (src/storage/layer.rs:696-697). -/
  | got (b : Bytes)
  /-- `write_all` has yet to write `rest` from `pos` on (src/storage/layer.rs:684-685). -/
  | writing (pos : Nat) (rest : Bytes)
  /-- The call is going to return (src/storage/layer.rs:686-689, 699-714). -/
  | returning (r : RollupRes LayerName)
  /-- The call has returned. -/
  | done
deriving DecidableEq

end RollupFile

/-- The rollup files, the calls and where they are. The directories of the layers are there. -/
structure RollupFile where
  file : LayerName → Option Bytes := fun _ => none
  calls : Calls (RollupOp LayerName) (RollupRes LayerName) := fun _ => none
  phase : Nat → RollupFile.Phase := fun _ => .begun
  now : Nat := 0

namespace RollupFile

open LockedLabels (writeAt readAt)
open LockedRollups (upd)

/-- A call goes on to another phase. -/
def goto (s : RollupFile) (i : Nat) (p : Phase) : RollupFile :=
  { s with phase := upd s.phase i p, now := s.now + 1 }

/-- A rollup file gets other contents. -/
def putFile (s : RollupFile) (n : LayerName) (b : Bytes) : RollupFile :=
  { s with file := upd s.file n (some b) }

/-- What `read_rollup_file` makes of the contents of the file (src/storage/layer.rs:699-714). -/
def result (b : Bytes) : RollupRes LayerName :=
  match readRollupFile b with
  | .ok r => .got (some r)
  | .err => .unreadable
  | .panic => .panicked

/-- What call `i` does next, if it can; a read or write is of `k + 1` bytes at most. `trunc` tells
whether opening a file for writing truncates it (`FileBackedStore` of tdb-succinct). Opening a file that
was just found does not fail, since rollup files are not removed. -/
def next (trunc : Bool) (s : RollupFile) (i k : Nat)
    (c : TimedCall (RollupOp LayerName) (RollupRes LayerName)) : Option RollupFile :=
  match s.phase i, c.op with
  | .begun, .get n =>
    -- src/storage/layer.rs:373-375, 692-694
    match s.file n with
    | none => some (s.goto i (.returning (.got none)))
    | some _ => some (s.goto i .opened)
  | .begun, .set n r =>
    -- src/storage/layer.rs:681-684
    some ((s.putFile n (if trunc then [] else (s.file n).getD [])).goto i (.writing 0 (rollupFile r)))
  | .opened, .get n => some (s.goto i (.got (readAt ((s.file n).getD []) 0 k)))
  | .got b, .get n =>
    let all := (s.file n).getD []
    if b.length < all.length then some (s.goto i (.got (b ++ readAt all b.length k)))
    else some (s.goto i (.returning (result b)))
  | .writing pos rest, .set n _ =>
    if rest = [] then some (s.goto i (.returning .done))
    else some ((s.putFile n (writeAt ((s.file n).getD []) pos (rest.take (k + 1)))).goto i
      (.writing (pos + (rest.take (k + 1)).length) (rest.drop (k + 1))))
  | .returning r, _ =>
    some { s with calls := upd s.calls i (some { c with answer := some (r, s.now) })
                  phase := upd s.phase i .done
                  now := s.now + 1 }
  | _, _ => none

/-- A call begins, or goes on. If `whole`, then the operating system reads and writes as much as it is
asked to: the 43 bytes of a rollup file are read and written in one piece. A call that is dropped,
or whose process is killed, is one that does not go on. -/
inductive Step (trunc whole : Bool) : RollupFile → RollupFile → Prop
  | start {s : RollupFile} {i : Nat} {op : RollupOp LayerName} : s.calls i = none →
      Step trunc whole s { s with calls := upd s.calls i (some ⟨op, s.now, none⟩)
                                  phase := upd s.phase i .begun
                                  now := s.now + 1 }
  | go {s s' : RollupFile} {i k : Nat} {c : TimedCall (RollupOp LayerName) (RollupRes LayerName)} :
      s.calls i = some c → (whole = true → 43 ≤ k + 1) → next trunc s i k c = some s' →
      Step trunc whole s s'

/-- The states that can be reached when no layer has a rollup at the beginning. -/
inductive Run (trunc whole : Bool) : RollupFile → Prop
  | start : Run trunc whole {}
  | step {s s' : RollupFile} : Run trunc whole s → Step trunc whole s s' → Run trunc whole s'

/-- Things happen: `k` steps of call `i`, steps of other calls that satisfy `P`, and calls begin. -/
inductive Walk (trunc : Bool) (P : RollupOp LayerName → Prop) (i : Nat) :
    RollupFile → RollupFile → Nat → Prop
  | refl (s : RollupFile) : Walk trunc P i s s 0
  | own {s s1 s2 : RollupFile} {k q : Nat} {c : TimedCall (RollupOp LayerName) (RollupRes LayerName)} :
      Walk trunc P i s s1 k → s1.calls i = some c → next trunc s1 i q c = some s2 →
      Walk trunc P i s s2 (k + 1)
  | start {s s1 : RollupFile} {k j : Nat} {op : RollupOp LayerName} : Walk trunc P i s s1 k →
      s1.calls j = none →
      Walk trunc P i s { s1 with calls := upd s1.calls j (some ⟨op, s1.now, none⟩)
                                 phase := upd s1.phase j .begun
                                 now := s1.now + 1 } k
  | other {s s1 s2 : RollupFile} {k q j : Nat}
      {c : TimedCall (RollupOp LayerName) (RollupRes LayerName)} : Walk trunc P i s s1 k → j ≠ i →
      s1.calls j = some c → P c.op → next trunc s1 j q c = some s2 → Walk trunc P i s s2 k

/-- What others may do while a rollup of `n` is read or registered: not register another one. -/
def Elsewhere (n : LayerName) (op : RollupOp LayerName) : Prop := ∀ r, op ≠ .set n r

end RollupFile

end Verif
