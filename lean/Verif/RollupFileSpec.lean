import Verif.RollupSpec

/-!
What it means that registrations of rollups of layers, made at the same time by many callers, and calls
that ask for the rollup of a layer, take effect at single moments. Nothing of the model is mentioned.
-/

namespace Verif.Spec

variable {N : Type}

/-- The moments at which registrations took effect: each is between the beginning and the end
of its call, and every call that has returned has one. -/
structure Moments (h : Calls (RollupOp N) (RollupRes N)) (m : Nat → Option Nat) : Prop where
  within : ∀ i x, m i = some x → ∃ c n r, h i = some c ∧ c.op = .set n r ∧ c.start < x ∧
    ∀ a t, c.answer = some (a, t) → x < t
  all : ∀ i c n r a t, h i = some c → c.op = .set n r → c.answer = some (a, t) → ∃ x, m i = some x
  one : ∀ i j x, m i = some x → m j = some x → i = j

/-- No rollup of `n` was registered before the moment `y`. -/
def NoneBefore (h : Calls (RollupOp N) (RollupRes N)) (m : Nat → Option Nat) (n : N) (y : Nat) : Prop :=
  ∀ j d r x, h j = some d → d.op = .set n r → m j = some x → ¬ x < y

/-- The last rollup of `n` that was registered before the moment `y` is `r`. -/
def LastBefore (h : Calls (RollupOp N) (RollupRes N)) (m : Nat → Option Nat) (n : N) (y : Nat) (r : N) :
    Prop :=
  ∃ j d x, h j = some d ∧ d.op = .set n r ∧ m j = some x ∧ x < y ∧
    ∀ j' d' r' x', h j' = some d' → d'.op = .set n r' → m j' = some x' → x' < y → x' ≤ x

/-- A registration of a rollup of `n` was under way at the moment `y`. -/
def UnderWay (h : Calls (RollupOp N) (RollupRes N)) (m : Nat → Option Nat) (n : N) (y : Nat) : Prop :=
  ∃ j d r, h j = some d ∧ d.op = .set n r ∧ d.start < y ∧ (∀ x, m j = some x → y ≤ x) ∧
    ∀ a t, d.answer = some (a, t) → y < t

/-- What a call that asks for the rollup of `n` may return, if it looks at the moment `y`: the last that
was registered, or that there is none. It may also find something that is not the name of a layer, but
only while a rollup of `n` is being registered; and if `first`, only before any other is registered. -/
def Tells (first : Bool) (h : Calls (RollupOp N) (RollupRes N)) (m : Nat → Option Nat) (n : N) (y : Nat) :
    RollupRes N → Prop
  | .got none => NoneBefore h m n y
  | .got (some r) => LastBefore h m n y r
  | .unreadable => UnderWay h m n y ∧ (first = true → NoneBefore h m n y)
  | _ => False

end Verif.Spec
