import Verif.ApiSpec

/-!
The specification of the whole library as seen by a program that makes many calls at the same
time. It is the specification of one call after the other (`Verif.Api.Step`), where each call
takes effect at one moment between its beginning and its end, with these exceptions:

* `set_head` may answer `false` because the head was changed since the call began, and it may
  not notice that a graph was deleted and created again;
* `force_set_head_version` may answer `false` because the graph was deleted and created again
  since the call began;
* a commit closes its builder at one moment and makes the layer at a later one;
* a rollup uses up a name at one moment and takes effect at a later one, and it may do again what
  another rollup has done since it began;
* `apply_delta` and `apply_diff` read the changes at one moment and then make them one by one.

A layer that a call returns gets its number when the call ends.
-/

namespace Verif.Conc

open Spec Api

variable {K V L : Type}

/-- What happens: a call begins, a call that has begun goes on and is free to use the name `new`,
a call ends with an answer. -/
inductive Event (K V L : Type) where
  | inv (t : Nat) (c : Req K V L)
  | act (t : Nat) (new : Nat)
  | ret (t : Nat) (r : Ans K V L)
deriving DecidableEq

/-- How far a call has come. -/
inductive Pending (K V L : Type) where
  /-- It has had no effect. There were `since` earlier states when it began. -/
  | asked (c : Req K V L) (since : Nat)
  /-- A commit has closed its builder, which had the changes `cs`. -/
  | closing (b : Nat) (cs : List (Call (VTriple K V))) (load : Bool)
  /-- A rollup of `n`, completely or down to an ancestor, has used up a name. -/
  | rolling (n : Nat) (upto : Option Nat)
  /-- The changes `cs` are still to be made. With `strict` the builder must not be committed. -/
  | applying (b : Nat) (cs : List (Call (VTriple K V))) (strict : Bool)
  /-- It is to end with this answer and these layers. -/
  | answered (r : Ans K V L) (held : List Nat)

/-- The state of a store, the states before it, newest first, and the calls under way. -/
structure CState (K V L : Type) where
  now : State K V L := {}
  past : List (State K V L) := []
  calls : Nat → Option (Pending K V L) := fun _ => none

/-- The states since a call began when there were `k` earlier states. -/
def since (s : State K V L) (past : List (State K V L)) (k : Nat) : List (State K V L) :=
  s :: past.take (past.length - k)

/-- In one of these states the head of `l` was `o` with version `v`, and `n` may follow `o`. -/
def Read (ps : List (State K V L)) (s : State K V L) (l : L) (n : Nat) (o : Option Nat) (v : Nat) :
    Prop :=
  (∃ p ∈ ps, p.graphs l = some (o, v)) ∧ ∀ r, o = some r → s.log.Ancestor r n

/-- The call is a rollup of `n` that is not trivial, completely or down to an ancestor. -/
inductive Rolls (s : State K V L) : Req K V L → Nat → Option Nat → Prop
  | all {h n} : s.handles[h]? = some n → s.log.parent n ≠ none → Rolls s (.rollup h) n none
  | upto {h u n m c} : s.handles[h]? = some n → s.handles[u]? = some m →
      c = .rollupUpto h u ∨ c = .impreciseRollupUpto h u → s.Under m n →
      s.log.parent n ≠ some m → Rolls s c n (some m)

/-- The layer is not rolled up like this, and can be. -/
def Needs (s : State K V L) (n : Nat) : Option Nat → Prop
  | none => s.rolled n ≠ some none
  | some m => n ≠ m ∧ s.Unrolled n m

/-- The layer was rolled up. -/
def settled (s : State K V L) (n : Nat) (upto : Option Nat) : State K V L :=
  { s with rolled := fun m => if m = n then some upto else s.rolled m }

/-- How a call that is under way may change the state, and how far it is then. -/
inductive Effect [DecidableEq L] (past : List (State K V L)) :
    State K V L → Pending K V L → State K V L → Pending K V L → Prop
  /-- All at once. The layers that it returns are not in hand yet. -/
  | once {s c k r s' held} : Step s c r s' → s'.handles = s.handles ++ held →
      Effect past s (.asked c k) { s' with handles := s.handles } (.answered r held)
  /-- The head was changed since the call began. -/
  | setHeadLate {s l h n k o v o' v'} : s.handles[h]? = some n → s.graphs l = some (o, v) →
      Read (since s past k) s l n o' v' → (o', v') ≠ (o, v) →
      Effect past s (.asked (.setHead l h) k) s (.answered (.flag false) [])
  /-- The graph was deleted and created again since the call began. -/
  | setHeadAgain {s l h n k o o' v p} : s.handles[h]? = some n → s.graphs l = some (o, v) →
      Read (since s past k) s l n o' v → p ∈ since s past k → p.graphs l = none →
      Effect past s (.asked (.setHead l h) k) (s.setGraph l (some (some n, v + 1)))
        (.answered (.flag true) [])
  /-- The same; it has the version that was asked for, but it is another graph. -/
  | versionAgain {s l h n k o v p} : s.handles[h]? = some n → s.graphs l = some (o, v) →
      p ∈ since s past k → p.graphs l = none →
      Effect past s (.asked (.forceSetHeadVersion l h v) k) s (.answered (.flag false) [])
  /-- A commit closes its builder. -/
  | close {s b x cs load c k} : (c = .commit b ∧ load = true) ∨ (c = .commitNoLoad b ∧ load = false) →
      s.builders[b]? = some x → x.calls = some cs →
      Effect past s (.asked c k) (s.setBuilder b { x with calls := none }) (.closing b cs load)
  /-- It makes the layer. -/
  | write {s b x cs load i r held} : s.builders[b]? = some x →
      i.Fits (s.baseIds x.parent) (after (s.log.below x.parent) cs) →
      (load = false ∧ r = .done ∧ held = []) ∨ (load = true ∧ r = .layer 0 ∧ held = [x.name]) →
      Effect past s (.closing b cs load) (s.add (.commit x.name x.parent cs) i) (.answered r held)
  /-- A rollup that was needed at some time since the call began uses up a name. -/
  | hide {s c k n upto new p} : Rolls s c n upto → p ∈ since s past k → Needs p n upto →
      s.Fresh new →
      Effect past s (.asked c k) { s with hidden := new :: s.hidden } (.rolling n upto)
  /-- It takes effect. -/
  | settle {s n upto} : Effect past s (.rolling n upto) (settled s n upto) (.answered .done [])
  /-- A rollup that had been made at some time since the call began takes effect again. -/
  | again {s c k n upto p} : Rolls s c n upto → p ∈ since s past k → p.rolled n = some upto →
      Effect past s (.asked c k) (settled s n upto) (.answered .done [])
  /-- The changes are read. -/
  | readDelta {s b h x n cs k} : s.builders[b]? = some x → s.handles[h]? = some n →
      State.Leads (s.log.below (s.log.parent n)) (s.log.triples n) cs →
      Effect past s (.asked (.applyDelta b h) k) s (.applying b cs false)
  | readDiff {s b h x n cs k} : s.builders[b]? = some x → s.handles[h]? = some n →
      State.Leads (s.log.below x.parent) (s.log.triples n) cs →
      Effect past s (.asked (.applyDiff b h) k) s (.applying b cs true)
  /-- One of them is made. -/
  | apply {s b x c cs d strict} : s.builders[b]? = some x → x.calls = some d →
      Effect past s (.applying b (c :: cs) strict)
        (s.setBuilder b { x with calls := some (d ++ [c]) }) (.applying b cs strict)
  /-- `apply_delta` drops the errors of a committed builder. -/
  | applySkip {s b x c cs} : s.builders[b]? = some x → x.calls = none →
      Effect past s (.applying b (c :: cs) false) s (.applying b cs false)
  | applied {s b strict} : Effect past s (.applying b [] strict) s (.answered .done [])

/-- The names that a call asks for. -/
def asks : Req K V L → List Nat
  | .getLayer n => [n]
  | .merge ns => ns
  | _ => []

namespace CState

/-- The call may go on. A layer is not to be asked for while it is being committed, and
`apply_diff` is not to be used with a builder that is committed in the meantime. -/
def InContract (A : CState K V L) : Pending K V L → Prop
  | .asked c _ => Api.InContract A.now c ∧
      (∀ n ∈ asks c, ∀ t b cs load x, A.calls t = some (.closing b cs load) →
        A.now.builders[b]? = some x → x.name ≠ n)
  | .applying b (_ :: _) true => ∃ x, A.now.builders[b]? = some x ∧ x.calls ≠ none
  | _ => True

/-- The number of a layer is given when the call ends. -/
def numbered (n : Nat) : Ans K V L → Ans K V L
  | .layer _ => .layer n
  | .head (some _) v => .head (some n) v
  | r => r

end CState

/-- What may happen next. -/
inductive Goes [DecidableEq L] : CState K V L → Event K V L → CState K V L → Prop
  | inv {A t c} : A.calls t = none →
      Goes A (.inv t c)
        { A with calls := fun u => if u = t then some (.asked c A.past.length) else A.calls u }
  /-- A step without an effect. -/
  | skip {A t new p} : A.calls t = some p → A.InContract p → Goes A (.act t new) A
  | act {A t new p s' p'} : A.calls t = some p → A.InContract p →
      Effect A.past A.now p s' p' → (∀ n, A.now.Fresh n → n ≠ new → s'.Fresh n) →
      Goes A (.act t new) { now := s', past := A.now :: A.past,
                            calls := fun u => if u = t then some p' else A.calls u }
  | ret {A t r held} : A.calls t = some (.answered r held) →
      Goes A (.ret t (CState.numbered A.now.handles.length r)) { A with
          now := { A.now with handles := A.now.handles ++ held }
          calls := fun u => if u = t then none else A.calls u }

/-- The call is outside of the contract, and goes on nevertheless. -/
def CState.Leaves (A : CState K V L) : Event K V L → Prop
  | .act t _ => ∃ p, A.calls t = some p ∧ ¬ A.InContract p
  | _ => False

/-- The beginnings of calls, their steps and their ends are as specified, up to the first step
of a call outside of the contract. -/
inductive Allowed [DecidableEq L] : CState K V L → List (Event K V L) → Prop
  | nil {A} : Allowed A []
  | cons {A e A' rest} : Goes A e A' → Allowed A' rest → Allowed A (e :: rest)
  | out {A e rest} : A.Leaves e → Allowed A (e :: rest)

/-- They are as specified, and no call is outside of the contract. -/
inductive Kept [DecidableEq L] : CState K V L → List (Event K V L) → CState K V L → Prop
  | nil {A} : Kept A [] A
  | cons {A e A' rest B} : Goes A e A' → Kept A' rest B → Kept A (e :: rest) B

/-- The calls that end, with their answers; `cur` are the calls that are under way. -/
def pairs (cur : Nat → Option (Req K V L)) : List (Event K V L) → List (Req K V L × Ans K V L)
  | [] => []
  | .inv t c :: evs => pairs (fun u => if u = t then some c else cur u) evs
  | .act _ _ :: evs => pairs cur evs
  | .ret t r :: evs => (cur t).toList.map (·, r) ++ pairs cur evs

/-- The call is a question about a layer in hand or the name of a builder. -/
def lasting : Req K V L → Prop
  | .layerName _ | .parentName _ | .stackNames _ | .query _ _ | .additions _ _ | .removals _ _
  | .builderName _ => True
  | _ => False

/-- A step of a call was outside of the contract. -/
def Left [DecidableEq L] (A : CState K V L) (evs : List (Event K V L)) : Prop :=
  ∃ pre e post B, evs = pre ++ e :: post ∧ Kept A pre B ∧ B.Leaves e

/-- The call is `force_set_head`. -/
def isForce : Req K V L → Prop
  | .forceSetHead _ _ => True
  | _ => False

/-- The call is `apply_delta` or `apply_diff`. -/
def isApply : Req K V L → Prop
  | .applyDelta _ _ | .applyDiff _ _ => True
  | _ => False

/-- The number of steps of the call `t`. -/
def ownSteps (t : Nat) (evs : List (Event K V L)) : Nat :=
  evs.countP fun e => match e with
    | .act u _ => u = t
    | _ => false

/-- Calls one after the other: who makes it, the call, its answer and the names that its steps
were free to use. -/
def serial : List (Nat × Req K V L × Ans K V L × List Nat) → List (Event K V L)
  | [] => []
  | (t, c, r, news) :: rest => .inv t c :: (news.map (.act t) ++ .ret t r :: serial rest)

end Verif.Conc
