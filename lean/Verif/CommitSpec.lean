import Verif.ConcSpec

/-!
What a user says about the calls that make a layer with a builder.
-/

namespace Verif.Conc

open Spec Api

variable {K V L : Type}

/-- The call may add the triple to the builder `b`: what is added by ids or from other layers may
be any triple. -/
def MayAdd (b : Nat) (t : VTriple K V) : Req K V L → Prop
  | .edit b' (.addValue t') => b' = b ∧ t' = t
  | .edit b' (.addId _) | .applyDelta b' _ | .applyDiff b' _ => b' = b
  | _ => False

/-- The call may remove the triple from the builder `b`. -/
def MayRemove (b : Nat) (t : VTriple K V) : Req K V L → Prop
  | .edit b' (.removeValue t') => b' = b ∧ t' = t
  | .edit b' (.removeId _) | .applyDelta b' _ | .applyDiff b' _ => b' = b
  | _ => False

/-- No such call begins. -/
def Never (P : Req K V L → Prop) (evs : List (Event K V L)) : Prop :=
  ∀ u c, .inv u c ∈ evs → ¬ P c

/-- The layer that the builder `b` is on has the triple (`v`) or not; a new base layer is on
nothing. -/
def Before (evs : List (Event K V L)) (b : Nat) (t : VTriple K V) (v : Bool) : Prop :=
  ((.createBase, .builder b) ∈ pairs (fun _ => none) evs ∧ v = false) ∨
  ∃ h, (.openWrite h, .builder b) ∈ pairs (fun _ => none) evs ∧
    (.query h (.has t), .answer (.flag v)) ∈ pairs (fun _ => none) evs

/-- The layer `k` was made with the builder `b`: they have the same name. -/
def MadeBy (evs : List (Event K V L)) (k b : Nat) : Prop :=
  ∃ n, (.builderName b, .name n) ∈ pairs (fun _ => none) evs ∧
    (.layerName k, .name n) ∈ pairs (fun _ => none) evs

/-- A commit of the builder `b`. -/
def isCommit (b : Nat) : Req K V L → Bool
  | .commit b' | .commitNoLoad b' => b' == b
  | _ => false

/-- It succeeded. -/
def made : Ans K V L → Bool
  | .failed => false
  | _ => true

end Verif.Conc
