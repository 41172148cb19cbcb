import Verif.ConcSpec

/-!
The specification of a store on disk that is used by one process after the other. Each process
makes many calls at the same time, and stops at any moment, whatever calls are under way. Then the
next process opens the store. It finds all layers, all rollups and all heads; the layers in hand,
the builders and the calls under way are gone.
-/

namespace Verif.Conc

open Spec Api

variable {K V L : Type}

/-- A process finds the store `s'` where the last one left `s`. The names of builders that made no
layer stay in use, and more names may be in use without a layer. -/
def Reopened (s s' : State K V L) : Prop :=
  ∃ lost, s' = { s with handles := [], builders := [], lost := lost } ∧
    (∀ n ∈ s.lost, n ∈ lost) ∧
    (∀ b ∈ s.builders, ¬ s.log.known b.name → b.name ∉ s.hidden → b.name ∈ lost) ∧
    ∀ n ∈ lost, n ∈ s.lost ∨ (¬ s.log.known n ∧ n ∉ s.hidden)

/-- What happens in one process after the other is as specified, up to a step of a call outside of
the contract. -/
inductive LivesAllowed [DecidableEq L] : CState K V L → List (List (Event K V L)) → Prop
  | last {A evs} : Allowed A evs → LivesAllowed A [evs]
  | stop {A evs B s' rest} : Kept A evs B → Reopened B.now s' → LivesAllowed { now := s' } rest →
      LivesAllowed A (evs :: rest)
  | out {A evs rest} : Left A evs → LivesAllowed A (evs :: rest)

/-- It is as specified, no call is outside of the contract, and the next process finds the store
`s'`. -/
inductive LivesKept [DecidableEq L] : State K V L → List (List (Event K V L)) → State K V L → Prop
  | nil {s} : LivesKept s [] s
  | stop {s evs B s1 rest s'} : Kept { now := s } evs B → Reopened B.now s1 →
      LivesKept s1 rest s' → LivesKept s (evs :: rest) s'

/-- The call may change the graph `l`. -/
def changes (l : L) : Req K V L → Prop
  | .createGraph k | .deleteGraph k | .dropGraph k | .setHead k _ | .forceSetHead k _
  | .forceSetHeadVersion k _ _ => k = l
  | _ => False

/-- The call is to set the head of `l` to the layer in hand with the number `h`. -/
def setsTo (l : L) (h : Nat) : Req K V L → Prop
  | .setHead k i | .forceSetHead k i | .forceSetHeadVersion k i _ => k = l ∧ i = h
  | _ => False

/-- The answer of a call that has set a head. -/
def succeeded : Ans K V L → Prop
  | .flag true | .done => True
  | _ => False

/-- No call that may change the graph begins. -/
def Quiet (l : L) (evs : List (Event K V L)) : Prop := ∀ t c, .inv t c ∈ evs → ¬ changes l c

/-- All that happened in one process after the other is as specified, and no call is outside of the
contract. The last process may still run. -/
def LivesWhole [DecidableEq L] (evss : List (List (Event K V L))) : Prop :=
  ∃ before evs s B, evss = before ++ [evs] ∧ LivesKept {} before s ∧ Kept { now := s } evs B

/-- Of what happened, `a` is a part of the process `wa` and `b` is a part of the process `wb`, which
is the last, and `b` is after `a`: later in the same process, or in a later one. -/
inductive After : List (List (Event K V L)) → (a wa b wb : List (Event K V L)) → Prop
  | same {before a b} : After (before ++ [a ++ b]) a (a ++ b) b (a ++ b)
  | later {before a mid b} : After (before ++ a :: mid ++ [b]) a a b b

/-- The call creates a graph or moves a head with `set_head`. -/
def gentle : Req K V L → Prop
  | .createGraph _ | .setHead _ _ => True
  | _ => False

/-- The graph is not deleted, and its head is moved with `set_head` only. -/
def Careful (l : L) (evs : List (Event K V L)) : Prop :=
  ∀ t c, .inv t c ∈ evs → changes l c → gentle c

end Verif.Conc
