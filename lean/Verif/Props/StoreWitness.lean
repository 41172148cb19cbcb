import Verif.Props.Script
import Verif.Props.Witness

/-!
Concrete executions of the store, for the examples in `Props/Store.lean`.
-/

set_option linter.unusedSectionVars false

namespace Verif.Witness

open Verif SimpleBuilder Spec World Store

/-- A test that a script reaches a state with a property. -/
def reaches (safe : Bool) (cs : List (Cmd Nat Nat)) (P : World Nat Nat → Bool) : Bool :=
  match ({} : World Nat Nat).script safe cs with
  | some w => P w
  | none => false

theorem reaches_run {safe : Bool} {cs : List (Cmd Nat Nat)} {P : World Nat Nat → Prop}
    [DecidablePred P] (h : reaches safe cs (fun w => decide (P w)) = true) :
    ∃ w, Run safe w ∧ P w := by
  unfold reaches at h
  split at h
  · rename_i w hw
    exact ⟨w, script_run .start hw, of_decide_eq_true h⟩
  · cases h

/-- Three commits, with loads in between. -/
def commits : List (Cmd Nat Nat) :=
  [.base 100 baseOps, .load 100, .child 100 101 childOps, .load 101,
   .child 101 102 [.addValue ⟨0, 9, .node 1⟩, .removeValue ⟨2, 12, .node 4⟩], .load 102]

/-- Four commits, with loads in between. -/
def four : List (Cmd Nat Nat) :=
  [.base 0 [.addValue ⟨1, 10, .node 2⟩], .load 0,
   .child 0 1 [.addValue ⟨1, 11, .node 2⟩], .load 1,
   .child 1 2 [.addValue ⟨1, 20, .node 2⟩], .load 2,
   .child 2 3 [.addValue ⟨1, 15, .node 3⟩], .load 3]

/-- What the layers that were returned for a name report, the newest first: the name, the
parent, the names of the layers they consist of, and whether they have the triple. -/
def reports (w : World Nat Nat) (n : Name) (t : VTriple Nat Nat) :
    List (Name × Option Name × List Name × Option Bool) :=
  (w.held.filter (·.1 = n)).map fun q =>
    (q.2.name, q.2.parentName, q.2.levels.map (·.1), Stack.valueTripleExists q.2.stack t)

/-- The reports are as given. -/
def tells (w : World Nat Nat) (n : Name) (t : VTriple Nat Nat)
    (r : List (Name × Option Name × List Name × Option Bool)) : Bool := decide (reports w n t = r)

theorem mem_reports {w : World Nat Nat} {n m : Name} {t : VTriple Nat Nat} {p : Option Name}
    {ns : List Name} {b : Option Bool} (h : (m, p, ns, b) ∈ reports w n t) :
    ∃ l, (n, l) ∈ w.held ∧ l.name = m ∧ l.parentName = p ∧
      Stack.valueTripleExists l.stack t = b := by
  obtain ⟨⟨n', l⟩, h1, h2⟩ := List.mem_map.1 h
  obtain ⟨h3, h4⟩ := List.mem_filter.1 h1
  simp only [decide_eq_true_eq] at h4
  subst h4
  simp only [Prod.mk.injEq] at h2
  exact ⟨l, h3, h2.1, h2.2.1, h2.2.2.2⟩

end Verif.Witness
