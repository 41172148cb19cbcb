import Verif.Model.Named

/-!
Executions of the label stores that can be evaluated, for the examples.
-/

namespace Verif

open Spec

set_option linter.unusedSectionVars false

variable {L N σ : Type} [DecidableEq L]

/-- A call begins, or a call goes on. -/
inductive LabelAct (L N : Type) where
  | call (i : Nat) (op : LabelOp L N)
  | go (i : Nat)

namespace Shared

variable (call : σ → LabelOp L N → LabelRes N × σ)

/-- One step, if possible. -/
def next (s : Shared σ L N) : LabelAct L N → Option (Shared σ L N)
  | .call i op =>
    match s.calls i with
    | none => some { s with calls := putCall s.calls i ⟨op, s.now, none⟩, now := s.now + 1 }
    | some _ => none
  | .go i =>
    match s.calls i with
    | none => none
    | some c =>
      match c.answer with
      | none => some ⟨(call s.state c.op).2,
          putCall s.calls i { c with answer := some ((call s.state c.op).1, s.now) }, s.now + 1⟩
      | some _ => none

/-- Steps as long as they are possible. -/
def exec (s : Shared σ L N) : List (LabelAct L N) → Shared σ L N
  | [] => s
  | a :: as =>
    match next call s a with
    | some s' => exec s' as
    | none => s

theorem exec_run {init : σ} {s : Shared σ L N} (h : Run call init s) (as : List (LabelAct L N)) :
    Run call init (exec call s as) := by
  induction as generalizing s with
  | nil => exact h
  | cons a as ih =>
    rw [exec]
    split
    · rename_i s' hs
      apply ih
      refine h.step ?_
      cases a with
      | call i op =>
        simp only [next] at hs
        split at hs
        · rename_i hi
          cases hs
          exact Step.start hi
        · cases hs
      | go i =>
        simp only [next] at hs
        split at hs
        · cases hs
        · rename_i c hi
          split at hs
          · rename_i hc
            cases hs
            exact Step.work hi hc
          · cases hs
    · exact h

/-- The calls of an execution are those that it begins. -/
theorem exec_calls {s : Shared σ L N} (as : List (LabelAct L N)) {k : Nat} {c : LabelCall L N}
    (hk : (exec call s as).calls k = some c) :
    (∃ c0, s.calls k = some c0 ∧ c0.op = c.op) ∨ LabelAct.call k c.op ∈ as := by
  induction as generalizing s with
  | nil => exact Or.inl ⟨c, hk, rfl⟩
  | cons a as ih =>
    rw [exec] at hk
    split at hk
    · rename_i s' hs
      rcases ih hk with ⟨c0, h1, h2⟩ | h1
      · cases a with
        | call i op =>
          simp only [next] at hs
          split at hs
          · cases hs
            simp only [putCall] at h1
            split at h1
            · rename_i e
              cases h1
              subst e
              right
              rw [← h2]
              exact List.mem_cons_self
            · exact Or.inl ⟨c0, h1, h2⟩
          · cases hs
        | go i =>
          simp only [next] at hs
          split at hs
          · cases hs
          · rename_i c' hi
            split at hs
            · cases hs
              simp only [putCall] at h1
              split at h1
              · rename_i e
                cases h1
                subst e
                exact Or.inl ⟨c', hi, h2⟩
              · exact Or.inl ⟨c0, h1, h2⟩
            · cases hs
      · exact Or.inr (List.mem_cons_of_mem _ h1)
    · exact Or.inl ⟨c, hk, rfl⟩

end Shared

namespace DirLabels

/-- The version in an update is small. -/
def small : LabelOp L LayerName → Bool
  | .set _ old _ => decide (old.version + 1 < 2 ^ 64)
  | _ => true

/-- One step, if possible. -/
def move (s : DirLabels L) : LabelAct L LayerName → Option (DirLabels L)
  | .call i op =>
    match s.calls i with
    | none =>
      if small op then
        some { s with calls := putCall s.calls i ⟨op, s.now, none⟩
                      phase := upd s.phase i .begun
                      now := s.now + 1 }
      else none
    | some _ => none
  | .go i =>
    match s.calls i with
    | none => none
    | some c =>
      match c.op, s.phase i, s.dir c.op.name with
      | .get _, .begun, some inode => some (s.goto i (.opened inode))
      | .get _, .begun, none => some (s.answer i c (.got none))
      | .get _, .opened inode, _ => some (s.answer i c (readResult (s.data inode)))
      | .set _ _ _, .begun, some inode => some (s.goto i (.opened inode))
      | .set _ _ _, .begun, none => some (s.answer i c .missing)
      | .set _ old layer, .opened inode, _ =>
        some ({ s with data := upd s.data inode (setResult (s.data inode) old layer).2 }.answer i c
          (setResult (s.data inode) old layer).1)
      | .create _, .begun, none => some (s.goto i .checked)
      | .create _, .begun, some _ => some (s.answer i c .exists)
      | .create _, .checked, some _ => some (s.answer i c .exists)
      | .create n, .checked, none =>
        some ({ s with dir := upd s.dir n (some s.next)
                       data := upd s.data s.next []
                       next := s.next + 1 }.goto i (.made s.next))
      | .create _, .made inode, _ =>
        some ({ s with data := upd s.data inode (labelFile .newEmpty) }.answer i c .created)
      | .delete n, .begun, _ =>
        some ({ s with dir := upd s.dir n none }.answer i c (.deleted (s.dir n).isSome))
      | _, _, _ => none

/-- Steps as long as they are possible. -/
def exec (s : DirLabels L) : List (LabelAct L LayerName) → DirLabels L
  | [] => s
  | a :: as =>
    match move s a with
    | some s' => exec s' as
    | none => s

theorem move_step {s s' : DirLabels L} {a : LabelAct L LayerName} (hs : move s a = some s') :
    Step s s' := by
  cases a with
  | call i op =>
    simp only [move] at hs
    split at hs
    · rename_i hi
      split at hs
      · rename_i hm
        cases hs
        refine Step.start hi ?_
        intro n old layer ho
        rw [ho] at hm
        simpa [small] using hm
      · cases hs
    · cases hs
  | go i =>
    simp only [move] at hs
    split at hs
    · cases hs
    · rename_i c hi
      split at hs
      · rename_i h1 h2 h3
        cases hs; exact Step.openFile hi h2 (Or.inl ⟨_, h1⟩) h3
      · rename_i h1 h2 h3
        cases hs; rw [h1] at h3; exact Step.getMissing hi h2 h1 h3
      · rename_i h1 h2
        cases hs; exact Step.read hi h2 h1
      · rename_i h1 h2 h3
        cases hs; exact Step.openFile hi h2 (Or.inr ⟨_, _, _, h1⟩) h3
      · rename_i h1 h2 h3
        cases hs; rw [h1] at h3; exact Step.setMissing hi h2 h1 h3
      · rename_i h1 h2
        cases hs; exact Step.write hi h2 h1
      · rename_i h1 h2 h3
        cases hs; rw [h1] at h3; exact Step.check hi h2 h1 h3
      · rename_i h1 h2 h3
        cases hs; rw [h1] at h3; exact Step.createExists hi (Or.inl h2) h1 h3
      · rename_i h1 h2 h3
        cases hs; rw [h1] at h3; exact Step.createExists hi (Or.inr h2) h1 h3
      · rename_i h1 h2 h3
        cases hs; rw [h1] at h3; exact Step.make hi h2 h1 h3
      · rename_i h1 h2
        cases hs; exact Step.fill hi h2 h1
      · rename_i h1 h2
        cases hs; exact Step.unlink hi h2 h1
      · cases hs

theorem exec_run {s : DirLabels L} (h : Run s) (as : List (LabelAct L LayerName)) :
    Run (exec s as) := by
  induction as generalizing s with
  | nil => exact h
  | cons a as ih =>
    rw [exec]
    split
    · rename_i s' hs
      exact ih (h.step (move_step hs))
    · exact h

end DirLabels

end Verif
