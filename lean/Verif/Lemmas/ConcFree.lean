import Verif.Lemmas.ApiNames
import Verif.Model.Conc

/-!
A step of a call among many uses up no name but the one that it was free to choose.
-/

set_option linter.unusedSectionVars false

namespace Verif.Conc

open Spec SimpleBuilder Store Api Session

variable {K V L : Type} [LinearOrder K] [LinearOrder V] [DecidableEq L]
  {M : Shop K V L} {n : Name}

theorem free_taking {s : Session K V L} (hs : s.Free n) (b : Nat) (load : Bool) :
    (taking s b load).2.Free n := by
  unfold taking
  split
  · exact hs
  · rename_i x hx
    have hx := List.mem_of_getElem? hx
    split <;> exact free_setLock hs hx _

theorem free_begins (hs : M.session.Free n) {ch : Choice K V L} (hn : n ≠ ch.new) (c : Req K V L) :
    (begins M ch c).2.Free n := by
  have hsingle : ∀ c, (single M.session (M.session.perform ch c)).2.Free n := by
    intro c
    exact free_perform hs hn c
  cases c <;> first | exact hs | exact free_taking hs _ _ | exact hsingle _

theorem free_continues {s : Session K V L} (hs : s.Free n) {ch : Choice K V L} (hn : n ≠ ch.new)
    (c : Req K V L) (l : InternalLayer K V) : (continues s ch c l).2.Free n := by
  cases c <;> first | exact hs | skip
  unfold continues
  dsimp only
  split
  · exact hs
  · exact free_snoc hs hn

theorem free_sets {s : Session K V L} (hs : s.Free n) (c : Req K V L) (l : L) (m : Name)
    (d : LabelData Name) : (sets s c l m d).2.Free n := by
  unfold sets
  dsimp only
  split <;> exact hs

theorem free_registerRollup {st : Store K V} {a b : Name} (h : st.get? n = none) :
    (registerRollup st a b).get? n = none := by
  unfold registerRollup
  split
  · exact h
  · rw [get?_setRollup]
    split
    · rw [h]; rfl
    · exact h

theorem free_advance (hs : M.session.Free n) {ch : CChoice K V L} (hn : n ≠ ch.base.new)
    {st : Stage K V L} (hx : ∀ x sb load, st = .taken x sb load → x.name ≠ n) :
    (advance M ch st).2.1.Free n := by
  cases st with
  | start c => exact free_begins hs hn c
  | fetch g m missing => exact hs
  | search g m k => exact hs
  | holds c l =>
    simp only [advance]
    split
    · exact hs
    · exact free_continues hs hn c l
  | reading c l =>
    simp only [advance]
    split
    · exact hs
    · exact free_continues hs hn c l
  | asking c l m d =>
    simp only [advance]
    split
    · exact hs
    · split <;> exact hs
  | setting c l m d => exact free_sets hs c l m d
  | writing c pl => exact ⟨free_apply hs hn pl, hs.2⟩
  | rolling c m pl => exact ⟨free_apply hs hn pl, hs.2⟩
  | written m r => exact ⟨free_registerRollup hs.1, hs.2⟩
  | invalidating m => exact hs
  | taken x sb load =>
    simp only [advance]
    split
    · exact hs
    · refine ⟨?_, hs.2⟩
      show Store.get? (_ :: _) n = none
      rw [get?_cons_ne (hx x sb load rfl)]
      exact hs.1
  | applying b ops strict =>
    cases ops with
    | nil => exact hs
    | cons op ops =>
      simp only [advance]
      split
      · exact hs
      · rename_i x hx
        exact free_setLock hs (List.mem_of_getElem? hx) _
  | done r ls => exact hs

end Verif.Conc
