/-!
Histories of timed calls on an object, what it means that they are as if the calls happened
one at a time, and the specification of a layer builder: it collects changes until it is
committed, and refuses everything from then on. Nothing of the model is mentioned.
-/

namespace Verif.Spec

/-- A call as its caller sees it: what was called and when, and, if it has returned, the
answer and when it came. -/
structure TimedCall (O R : Type) where
  op : O
  start : Nat
  answer : Option (R × Nat)

/-- The calls that were made, by number. -/
abbrev Calls (O R : Type) := Nat → Option (TimedCall O R)

/-- A call that took effect: which one, when, and what the object answered. -/
structure Effect (O R : Type) where
  id : Nat
  time : Nat
  op : O
  res : R

/-- The state of an object after some calls. -/
def stateAfter {σ O R : Type} (call : σ → O → R × σ) (s : σ) : List (Effect O R) → σ
  | [] => s
  | e :: G => stateAfter call (call s e.op).2 G

/-- All answers are those of calls that happen one at a time in this order. -/
def Replays {σ O R : Type} (call : σ → O → R × σ) (s : σ) : List (Effect O R) → Prop
  | [] => True
  | e :: G => e.res = (call s e.op).1 ∧ Replays call (call s e.op).2 G

/-- The calls of a history took effect as listed in `G`: each call that was answered, unless
it broke off, took effect once, at a moment between call and answer, in the order of
the list, and was answered as the object says (`agree`); no other calls had effects. -/
structure Linearized {σ O R : Type} (call : σ → O → R × σ) (init : σ) (brokeOff : R → Prop)
    (agree : R → R → Prop) (h : Calls O R) (G : List (Effect O R)) : Prop where
  replays : Replays call init G
  sorted : G.Pairwise (fun a b => a.time < b.time)
  once : G.Pairwise (fun a b => a.id ≠ b.id)
  complete : ∀ i c r t, h i = some c → c.answer = some (r, t) → ¬ brokeOff r → ∃ e ∈ G, e.id = i
  sound : ∀ e ∈ G, ∃ c, h e.id = some c ∧ c.op = e.op ∧ c.start ≤ e.time ∧
    ∀ r t, c.answer = some (r, t) → agree e.res r ∧ e.time ≤ t

/-! ### Layer builders -/

/-- A call on a layer builder. `C` are the changes. -/
inductive BuilderOp (C : Type) where
  | change (c : C)
  /-- `committed()`. -/
  | committed
  /-- `commit()` or `commit_no_load()`. -/
  | commit
deriving DecidableEq

/-- The answer to a call. -/
inductive BuilderRes where
  | done
  /-- The builder has already been committed. -/
  | refused
  | flag (b : Bool)
  /-- Writing the layer failed. -/
  | failed
  /-- The caller panicked. -/
  | panicked
deriving DecidableEq

/-- A builder: the changes it has collected, nothing once it is committed. -/
def builderCall {C : Type} : Option (List C) → BuilderOp C → BuilderRes × Option (List C)
  | some cs, .change c => (.done, some (cs ++ [c]))
  | some cs, .committed => (.flag false, some cs)
  | some _, .commit => (.done, none)
  | none, .change _ => (.refused, none)
  | none, .committed => (.flag true, none)
  | none, .commit => (.refused, none)

/-- A commit that was let through may still fail to write its layer. -/
def builderAgree (said : BuilderRes) (got : BuilderRes) : Prop :=
  got = said ∨ (said = .done ∧ (got = .failed ∨ got = .panicked))

/-- The caller panicked. -/
def builderBroke (r : BuilderRes) : Prop := r = .panicked

/-- The changes among the calls. -/
def changesOf {C R : Type} : List (Effect (BuilderOp C) R) → List C
  | [] => []
  | ⟨_, _, .change c, _⟩ :: G => c :: changesOf G
  | _ :: G => changesOf G

/-- The changes that were answered with success, in the order of `G`: those of which the
builder says it has them. -/
def acceptedOf {C : Type} : List (Effect (BuilderOp C) BuilderRes) → List C
  | [] => []
  | ⟨_, _, .change c, .done⟩ :: G => c :: acceptedOf G
  | _ :: G => acceptedOf G

/-- The calls `ids` of the history make the changes `cs`, one each. -/
def Makes {C : Type} (h : Calls (BuilderOp C) BuilderRes) (ids : List Nat) (cs : List C) : Prop :=
  ids.length = cs.length ∧
    ∀ (k : Nat) i c, ids[k]? = some i → cs[k]? = some c → ∃ call, h i = some call ∧ call.op = .change c

/-- The calls `ids` make the changes `cs`, and no other change is ever made; they have all
returned at the moment `t`. The call `j` begins at `t` or later, commits, and succeeds. -/
structure ChangesThenCommit {C : Type} (h : Calls (BuilderOp C) BuilderRes) (ids : List Nat)
    (cs : List C) (j t : Nat) : Prop where
  makes : Makes h ids cs
  only : ∀ i call c, h i = some call → call.op = .change c → i ∈ ids
  returned : ∀ i ∈ ids, ∃ call r u, h i = some call ∧ call.answer = some (r, u) ∧ u ≤ t
  commit : ∃ call u, h j = some call ∧ call.op = .commit ∧ t ≤ call.start ∧
    call.answer = some (.done, u)

end Verif.Spec
