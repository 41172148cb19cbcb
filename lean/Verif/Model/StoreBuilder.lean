import Verif.BuilderSpec
import Verif.Model.World
import Verif.Model.LayerChanges

/-!
Model of `StoreLayerBuilder` (src/store/mod.rs:37-226): a layer builder behind a lock that
any number of callers share.
-/

namespace Verif

open SimpleBuilder Spec

variable {K V : Type} [LinearOrder K] [LinearOrder V]

/-- The lock around the builder (src/store/mod.rs:40): `RwLock<Option<Box<dyn LayerBuilder>>>`.
A panic of a holder of the write lock poisons it, and then every `expect` on it panics. -/
inductive BuilderLock (K V : Type) where
  | «open» (b : SimpleBuilder K V)
  | taken
  | poisoned

/-- Where a call of `commit` is. -/
inductive CommitPhase (K V : Type) where
  /-- Not at the lock yet. -/
  | begun
  /-- The builder was taken out (src/store/mod.rs:126-135); `commit_boxed` is running. -/
  | writing (b : SimpleBuilder K V)
  /-- `commit_boxed` and `finalize_layer` are done (src/store/mod.rs:144-148). -/
  | wrote
  /-- Returned. -/
  | done

/-- A builder, the calls on it and the layers that it wrote. -/
structure BuilderUse (K V : Type) where
  lock : BuilderLock K V
  calls : Calls (BuilderOp (Op K V)) BuilderRes := fun _ => none
  phase : Nat → CommitPhase K V := fun _ => .begun
  /-- The layers that were written and made final, newest first. -/
  written : List (LayerData K V) := []
  now : Nat := 0

namespace BuilderUse

/-- Set the value of a function at one point. -/
def upd {β : Type} (f : Nat → β) (i : Nat) (b : β) : Nat → β := fun k => if k = i then b else f k

/-- `with_builder` (src/store/mod.rs:66-82) with one of the four changes
(src/store/mod.rs:97-114). -/
def withBuilder (l : BuilderLock K V) (op : Op K V) : BuilderRes × BuilderLock K V :=
  match l with
  | .taken => (.refused, .taken)
  | .poisoned => (.panicked, .poisoned)
  | .open b =>
    match b.step op with
    | some b' => (.done, .open b')
    | none => (.panicked, .poisoned)

/-- `committed` (src/store/mod.rs:117-122). -/
def committed : BuilderLock K V → BuilderRes
  | .taken => .flag true
  | .open _ => .flag false
  | .poisoned => .panicked

/-- The part of `commit_no_load` under the lock (src/store/mod.rs:125-143): what is taken
out, or the answer. -/
def takeBuilder : BuilderLock K V → (SimpleBuilder K V ⊕ BuilderRes) × BuilderLock K V
  | .open b => (.inl b, .taken)
  | .taken => (.inr .refused, .taken)
  | .poisoned => (.inr .panicked, .poisoned)

/-- A call returns. -/
def answer (s : BuilderUse K V) (i : Nat) (c : TimedCall (BuilderOp (Op K V)) BuilderRes)
    (r : BuilderRes) : BuilderUse K V :=
  { s with calls := upd s.calls i (some { c with answer := some (r, s.now) })
           phase := upd s.phase i .done
           now := s.now + 1 }

/-- The steps of the callers of one builder. -/
inductive Step : BuilderUse K V → BuilderUse K V → Prop
  | start {s : BuilderUse K V} {i op} : s.calls i = none →
      Step s { s with calls := upd s.calls i (some ⟨op, s.now, none⟩), now := s.now + 1 }
  | change {s : BuilderUse K V} {i c op} : s.calls i = some c → c.answer = none →
      c.op = .change op →
      Step s { s.answer i c (withBuilder s.lock op).1 with lock := (withBuilder s.lock op).2 }
  | committed {s : BuilderUse K V} {i c} : s.calls i = some c → c.answer = none →
      c.op = .committed → Step s (s.answer i c (committed s.lock))
  /-- A commit is refused, or finds the lock poisoned. -/
  | refuse {s : BuilderUse K V} {i c r} : s.calls i = some c → c.answer = none →
      c.op = .commit → s.phase i = .begun → (takeBuilder s.lock).1 = .inr r →
      Step s { s.answer i c r with lock := (takeBuilder s.lock).2 }
  /-- A commit takes the builder. -/
  | take {s : BuilderUse K V} {i c b} : s.calls i = some c → c.answer = none →
      c.op = .commit → s.phase i = .begun → (takeBuilder s.lock).1 = .inl b →
      Step s { s with lock := (takeBuilder s.lock).2
                      phase := upd s.phase i (.writing b)
                      now := s.now + 1 }
  /-- `commit_boxed` (src/layer/simple_builder.rs:218-420) and `finalize_layer`
  succeed. -/
  | write {s : BuilderUse K V} {i b nv pm d} : s.phase i = .writing b → nv.Perm b.nvMap →
      pm.Perm b.pMap → b.commitWith nv pm = some d →
      Step s { s with written := d :: s.written, phase := upd s.phase i .wrote, now := s.now + 1 }
  /-- One of them fails with an i/o error. -/
  | fail {s : BuilderUse K V} {i c b} : s.calls i = some c → s.phase i = .writing b →
      Step s (s.answer i c .failed)
  /-- `commit_boxed` panics. -/
  | panic {s : BuilderUse K V} {i c b nv pm} : s.calls i = some c → s.phase i = .writing b →
      nv.Perm b.nvMap → pm.Perm b.pMap → b.commitWith nv pm = none →
      Step s (s.answer i c .panicked)
  /-- The commit returns. -/
  | finish {s : BuilderUse K V} {i c} : s.calls i = some c → s.phase i = .wrote →
      Step s (s.answer i c .done)

/-- The executions of a builder on the layer with stack `S`, on nothing if `S` is empty. -/
inductive Run (S : List (LayerData K V)) : BuilderUse K V → Prop
  | start : Run S { lock := .open (SimpleBuilder.new S) }
  | step {s s'} : Run S s → Step s s' → Run S s'

end BuilderUse

/-! ### Applying other layers -/

/-- `layer_store.triple_additions` (src/storage/layer.rs:2282-2292): the files of the named
layer, whatever rollup it has. -/
def Store.tripleAdditions (st : Store K V) (n : Name) : Out (List Triple) :=
  match st.get? n with
  | none => .err
  | some e => Out.ofOption e.data.pos.triples

/-- `layer_store.triple_removals` (src/storage/layer.rs:2294-2308). -/
def Store.tripleRemovals (st : Store K V) (n : Name) : Out (List Triple) :=
  match st.get? n with
  | none => .err
  | some e => Out.ofOption (Stack.removals e.data)

/-- The calls for a list of id triples of the layer `T`: those that stand for no strings are
left out (src/store/mod.rs:175-188). A panic is `none`. -/
def stringCalls (T : List (LayerData K V)) (f : VTriple K V → Op K V) :
    List Triple → Option (List (Op K V))
  | [] => some []
  | t :: ts => do
    let r ← Stack.idTripleToString T t
    let rest ← stringCalls T f ts
    match r with
    | some st => return f st :: rest
    | none => return rest

/-- The calls that `apply_delta` makes on the builder (src/store/mod.rs:168-192). They are
made by parallel workers in any order. -/
def applyDeltaCalls (st : Store K V) (delta : InternalLayer K V) : Out (List (Op K V)) := do
  let adds ← st.tripleAdditions delta.name
  let rems ← st.tripleRemovals delta.name
  let a ← Out.ofOption (stringCalls delta.stack .addValue adds)
  let r ← Out.ofOption (stringCalls delta.stack .removeValue rems)
  return a ++ r

/-- The calls for the triples of the layer `T` that are not in the layer `U`
(src/store/mod.rs:201-209, 212-221). -/
def missingCalls (T U : List (LayerData K V)) (f : VTriple K V → Op K V) :
    List Triple → Option (List (Op K V))
  | [] => some []
  | t :: ts => do
    let r ← Stack.idTripleToString T t
    let rest ← missingCalls T U f ts
    match r with
    | none => return rest
    | some st =>
      let b ← Stack.valueTripleExists U st
      return if b then rest else f st :: rest

/-- The calls that `apply_diff` makes on a builder whose parent is the layer `S`, nothing if
`S` is empty (src/store/mod.rs:195-225). They are made by parallel workers in any
order. In the empty stack no triple exists, so a builder without parent is no special
case. -/
def applyDiffCalls (S other : List (LayerData K V)) : Option (List (Op K V)) := do
  let mine ← Stack.triples S
  let r ← missingCalls S other .removeValue mine
  let theirs ← Stack.triples other
  let a ← missingCalls other S .addValue theirs
  return r ++ a

/-- Make the calls of `apply_delta` in the given order, dropping their results
(src/store/mod.rs:176-187). -/
def runIgnoring : BuilderLock K V → List (Op K V) → Out Unit × BuilderLock K V
  | l, [] => (.ok (), l)
  | l, op :: ops =>
    match BuilderUse.withBuilder l op with
    | (.panicked, l') => (.panic, l')
    | (_, l') => runIgnoring l' ops

/-- Make the calls of `apply_diff` in the given order, with `unwrap` on their results
(src/store/mod.rs:205, 216, 219). -/
def runUnwrapping : BuilderLock K V → List (Op K V) → Out Unit × BuilderLock K V
  | l, [] => (.ok (), l)
  | l, op :: ops =>
    match BuilderUse.withBuilder l op with
    | (.done, l') => runUnwrapping l' ops
    | (_, l') => (.panic, l')

end Verif
