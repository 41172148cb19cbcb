import Verif.BuilderSpec

/-!
What the rollup registry of a store is: which layers there are, and for each the layer that it was
rolled up to, if any. Nothing of the model is mentioned.
-/

namespace Verif.Spec

/-- A call. `N` are names of layers. -/
inductive RollupOp (N : Type) where
  /-- A layer is stored. -/
  | store (n : N)
  /-- Which layer is this one rolled up to? -/
  | get (n : N)
  /-- Register that a layer is rolled up to another. -/
  | set (n r : N)
deriving DecidableEq

/-- The answer to a call. -/
inductive RollupRes (N : Type) where
  | done
  | got (r : Option N)
  /-- There is no such layer. -/
  | missing
  /-- What is registered is not the name of a layer. -/
  | unreadable
  /-- The caller panicked. -/
  | panicked
deriving DecidableEq

/-- The layer of a call. -/
def RollupOp.name {N : Type} : RollupOp N → N
  | .store n | .get n | .set n _ => n

/-- The registry: nothing for layers that are not there. -/
def rollupCall {N : Type} [DecidableEq N] (m : N → Option (Option N)) :
    RollupOp N → RollupRes N × (N → Option (Option N))
  | .store n =>
    (.done, fun k => if k = n then some ((m n).getD none) else m k)
  | .get n => (.got ((m n).getD none), m)
  | .set n r =>
    match m n with
    | none => (.missing, m)
    | some _ => (.done, fun k => if k = n then some (some r) else m k)

/-- The calls of a history are as if made one at a time, each when it was under way. -/
def RollupsLinearized {N : Type} [DecidableEq N] (h : Calls (RollupOp N) (RollupRes N))
    (G : List (Effect (RollupOp N) (RollupRes N))) : Prop :=
  Linearized rollupCall (fun _ => none) (fun _ => False) (· = ·) h G

end Verif.Spec
