/-!
Outcomes of operations that can fail or panic.
-/

namespace Verif

/-- The result of an operation: a value, an `io::Error`, or a panic (or no return). -/
inductive Out (α : Type) where
  | ok (a : α)
  | err
  | panic
deriving DecidableEq, Repr

namespace Out

/-- `?` and `await`. -/
def bind {α β : Type} : Out α → (α → Out β) → Out β
  | ok a, f => f a
  | err, _ => err
  | panic, _ => panic

instance : Monad Out where
  pure := Out.ok
  bind := Out.bind

/-- `expect`, or the outcome of a part of the model in which a panic is `none`. -/
def ofOption {α : Type} : Option α → Out α
  | some a => ok a
  | none => panic

end Out

end Verif
