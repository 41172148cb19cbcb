import Verif.Spec

/-!
The specification of a store as a whole: what each layer contains and which is its
parent, read off the history of operations that made layers. Nothing of the model is
mentioned; names are numbers.
-/

namespace Verif.Spec

/-- An operation that made a layer. `T` is the type of triples. -/
inductive Event (T : Type) where
  /-- A builder on `parent` (or on nothing) was given these calls and committed. -/
  | commit (new : Nat) (parent : Option Nat) (calls : List (Call T))
  /-- A rollup of the layer `of` was written, on top of `parent` or nothing. -/
  | rollup (new of : Nat) (parent : Option Nat)
  /-- The layer `of` was squashed. -/
  | squash (new of : Nat)
  /-- The layer `of` was squashed down to its ancestor `upto`. -/
  | squashUpto (new of upto : Nat)
  /-- The layers `ofs` were merged. -/
  | merge (new : Nat) (ofs : List Nat)
  /-- A layer with these triples was imported, on top of `parent` or nothing. -/
  | imported (new : Nat) (parent : Option Nat) (triples : T → Prop)

namespace Event

/-- The name of the layer that was made. -/
def new {T : Type} : Event T → Nat
  | .commit n _ _ | .rollup n _ _ | .squash n _ | .squashUpto n _ _
  | .merge n _ | .imported n _ _ => n

/-- The parent of the layer that was made. -/
def parent {T : Type} : Event T → Option Nat
  | .commit _ p _ | .rollup _ _ p | .imported _ p _ => p
  | .squash _ _ => none
  | .squashUpto _ _ u => some u
  | .merge _ _ => none

end Event

/-- A history, newest first. -/
abbrev History (T : Type) := List (Event T)

namespace History
variable {T : Type}

/-- The layers that were made. -/
def known (h : History T) (n : Nat) : Prop := ∃ e ∈ h, e.new = n

/-- The parent of a layer: that of the operation that made it. -/
def parent : History T → Nat → Option Nat
  | [], _ => none
  | e :: h, n => if n = e.new then e.parent else parent h n

/-- The triples of a layer: a commit changes those of the parent as `after` says, a rollup
or squash copies, a merge gives the union, an imported layer has what it had. -/
def triples : History T → Nat → T → Prop
  | [], _, _ => False
  | e :: h, n, t =>
    if n = e.new then
      match e with
      | .commit _ none calls => after (fun _ => False) calls t
      | .commit _ (some p) calls => after (triples h p) calls t
      | .rollup _ o _ | .squash _ o | .squashUpto _ o _ => triples h o t
      | .merge _ os => ∃ o ∈ os, triples h o t
      | .imported _ _ T => T t
    else triples h n t

/-- The triples of a layer, of none if there is none. -/
def below (h : History T) : Option Nat → T → Prop
  | none, _ => False
  | some p, t => h.triples p t

/-- The triples that a layer has and its parent has not. -/
def addedBy (h : History T) (n : Nat) (t : T) : Prop := h.triples n t ∧ ¬ h.below (h.parent n) t

/-- The triples that the parent of a layer has and the layer has not. -/
def removedBy (h : History T) (n : Nat) (t : T) : Prop := h.below (h.parent n) t ∧ ¬ h.triples n t

/-- `a` is `n` or an ancestor of `n`. -/
inductive Ancestor (h : History T) : Nat → Nat → Prop
  | self (n : Nat) : Ancestor h n n
  | up {a p n : Nat} : h.parent n = some p → Ancestor h a p → Ancestor h a n

/-- The names of a layer and its ancestors, oldest first. -/
inductive Line (h : History T) : Nat → List Nat → Prop
  | root {n : Nat} : h.parent n = none → Line h n [n]
  | step {n p : Nat} {ns : List Nat} : h.parent n = some p → Line h p ns → Line h n (ns ++ [n])

/-- Some rollup was made of the layer. -/
def rolledUp (h : History T) (n r : Nat) : Prop := ∃ p, Event.rollup r n p ∈ h

/-- No layer that was written as a rollup was itself rolled up. -/
def noRollupOfRollup (h : History T) : Prop := ∀ n r r', h.rolledUp n r → ¬ h.rolledUp r r'

/-- Nothing strictly above `upto` on the line of `n` was rolled up or is a rollup. -/
def untouched (h : History T) (n upto : Nat) : Prop :=
  ∀ m, h.Ancestor m n → (∃ p, h.parent m = some p ∧ h.Ancestor upto p) →
    ∀ r, ¬ h.rolledUp m r ∧ ¬ h.rolledUp r m

end History

end Verif.Spec
