import Verif.Model.Text

/-!
The specification of a label store: a map from names to labels with a compare and swap,
histories of calls, and what it means that a history is as if the calls happened one at a
time. Nothing of the stores is mentioned.
-/

namespace Verif.Spec

variable {L N : Type}

/-- A call on a label store. `set` gives the label that the caller believes to be stored. -/
inductive LabelOp (L N : Type) where
  | create (n : L)
  | get (n : L)
  | set (n : L) (old : LabelData N) (layer : Option N)
  | delete (n : L)
deriving DecidableEq

/-- The answer to a call. -/
inductive LabelRes (N : Type) where
  /-- `create` made the label. -/
  | created
  /-- `create` failed, the label exists. -/
  | exists
  /-- `get`. -/
  | got (l : Option (LabelData N))
  /-- `set` stored the new label, or another one was found. -/
  | set (l : Option (LabelData N))
  /-- `set` failed, there is no label. -/
  | missing
  /-- `delete`: whether there was a label. -/
  | deleted (b : Bool)
  /-- The stored label could not be read. -/
  | unreadable
deriving DecidableEq

namespace LabelOp

/-- The name a call is about. -/
def name : LabelOp L N → L
  | .create n | .get n | .set n _ _ | .delete n => n

end LabelOp

/-- What is stored. -/
abbrev Labels (L N : Type) := L → Option (LabelData N)

/-- The comparison of versions. -/
def sameVersion (a b : LabelData N) : Bool := decide (a.version = b.version)

/-- The comparison of whole labels. -/
def sameLabel [DecidableEq N] (a b : LabelData N) : Bool := decide (a = b)

variable [DecidableEq L]

/-- Store a label or remove it. -/
def Labels.put (m : Labels L N) (n : L) (l : Option (LabelData N)) : Labels L N :=
  fun k => if k = n then l else m k

/-- The label that a successful update of `old` stores. -/
def updated (old : LabelData N) (layer : Option N) : LabelData N := ⟨layer, old.version + 1⟩

/-- One call on the map. `same` is the comparison of the stored label with the one that the
caller has. -/
def callOn (same : LabelData N → LabelData N → Bool) (m : Labels L N) :
    LabelOp L N → LabelRes N × Labels L N
  | .create n =>
    match m n with
    | some _ => (.exists, m)
    | none => (.created, m.put n (some ⟨none, 0⟩))
  | .get n => (.got (m n), m)
  | .set n old layer =>
    match m n with
    | none => (.missing, m)
    | some cur =>
      if same cur old then (.set (some (updated old layer)), m.put n (some (updated old layer)))
      else (.set none, m)
  | .delete n => (.deleted (m n).isSome, m.put n none)

/-- A call that took effect: who made it, when, and what was answered. -/
structure LabelEvent (L N : Type) where
  id : Nat
  time : Nat
  op : LabelOp L N
  res : LabelRes N

/-- What is stored after some events. -/
def stored (same : LabelData N → LabelData N → Bool) (m : Labels L N) :
    List (LabelEvent L N) → Labels L N
  | [] => m
  | e :: G => stored same (callOn same m e.op).2 G

/-- All answers are those of calls that happen one at a time in this order. -/
def Answered (same : LabelData N → LabelData N → Bool) (m : Labels L N) :
    List (LabelEvent L N) → Prop
  | [] => True
  | e :: G => e.res = (callOn same m e.op).1 ∧ Answered same (callOn same m e.op).2 G

/-- A call as its caller sees it: what was called and when, and, if it has returned, the
answer and when it came. -/
structure LabelCall (L N : Type) where
  op : LabelOp L N
  start : Nat
  answer : Option (LabelRes N × Nat)
deriving DecidableEq

/-- The calls that were made, by number. -/
abbrev LabelHistory (L N : Type) := Nat → Option (LabelCall L N)

/-- The calls of a history took effect as listed in `G`: each call that was answered, unless
the label could not be read, took effect once, at a moment between call and answer, in
the order of the list, and was answered as the map says; no other calls had effects. -/
structure LinearizedBy (same : LabelData N → LabelData N → Bool) (h : LabelHistory L N)
    (G : List (LabelEvent L N)) : Prop where
  answered : Answered same (fun _ => none) G
  sorted : G.Pairwise (fun a b => a.time ≤ b.time)
  once : G.Pairwise (fun a b => a.id ≠ b.id)
  complete : ∀ i c r t, h i = some c → c.answer = some (r, t) → r ≠ .unreadable →
    ∃ e ∈ G, e.id = i
  sound : ∀ e ∈ G, ∃ c, h e.id = some c ∧ c.op = e.op ∧ c.start ≤ e.time ∧
    ∀ r t, c.answer = some (r, t) → r = e.res ∧ e.time ≤ t

/-- What is stored after events, if nothing was stored before. -/
abbrev labelsAfter (same : LabelData N → LabelData N → Bool) (G : List (LabelEvent L N)) : Labels L N :=
  stored same (fun _ => none) G

/-- None of the calls `ids` changed anything. -/
def NoEffect (same : LabelData N → LabelData N → Bool) (G : List (LabelEvent L N))
    (ids : List Nat) : Prop :=
  ∀ A e B, G = A ++ e :: B → e.id ∈ ids → labelsAfter same (A ++ [e]) = labelsAfter same A

/-- One of the calls `ids`, at a moment from `t` to `u`, replaced the label `l` of `n` by the
next version with the layer `layer`; this is all that these calls changed. -/
def SetsHead (same : LabelData N → LabelData N → Bool) (G : List (LabelEvent L N))
    (ids : List Nat) (t u : Nat) (n : L) (layer : N) (l : LabelData N) : Prop :=
  ∃ A e B, G = A ++ e :: B ∧ e.id ∈ ids ∧ t ≤ e.time ∧ e.time ≤ u ∧
    labelsAfter same A n = some l ∧
    labelsAfter same (A ++ [e]) = (labelsAfter same A).put n (some ⟨some layer, l.version + 1⟩) ∧
    ∀ A' e' B', G = A' ++ e' :: B' → e'.id ∈ ids → e'.id ≠ e.id →
      labelsAfter same (A' ++ [e']) = labelsAfter same A'

/-- At some moment from `t` to `u`, `P` held for what was stored. -/
def SomeTime (same : LabelData N → LabelData N → Bool) (G : List (LabelEvent L N)) (t u : Nat)
    (P : Labels L N → Prop) : Prop :=
  ∃ A B, G = A ++ B ∧ (∀ e ∈ A, e.time ≤ u) ∧ (∀ e ∈ B, t ≤ e.time) ∧ P (labelsAfter same A)

/-- The calls about one label. -/
def LabelHistory.only (h : LabelHistory L N) (n : L) : LabelHistory L N := fun i =>
  (h i).bind fun c => if c.op.name = n then some c else none

end Verif.Spec
