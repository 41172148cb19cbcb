import Verif.Props.LockedLabels
import Verif.Lemmas.LockedRuin

/-!
C62: what remains when the futures of calls on the directory label store are dropped. The calls are
modelled one system call at a time in `Verif/Model/LockedLabels.lean`.
-/

namespace Verif

open Spec

variable {L : Type} [DecidableEq L]

namespace LockedLabels

variable {s : LockedLabels L}

/-! ### C62: dropped calls -/

/-- C62: callers may drop the futures of their calls. If no call is dropped between making or
truncating a file and the end of writing it, then all is still as if the calls happened one at a
time: a call that was dropped has happened once as a whole or not at all, and the files say what is
stored, unless a caller that was not dropped is about to write. -/
theorem C62_dropped_calls_partial [Inhabited L] (hs : Run true dropsWhole s) :
    ∃ G, LinearizedBy sameLabel s.calls G ∧
      (∀ n, s.dir n = none → labelsAfter sameLabel G n = none) ∧
      (∀ n x, s.dir n = some x → ∃ l, labelsAfter sameLabel G n = some l ∧
        (readLabelFile (s.data x) = .ok l ∨
          ∃ k c, s.calls k = some c ∧ c.answer = none ∧ s.phase k ≠ .dropped ∧
            (c.op = .create n ∨ ∃ old layer, c.op = .set n old layer))) ∧
      ∀ k c t, s.calls k = some c → c.answer = some (.unreadable, t) →
        ∃ k' c', s.calls k' = some c' ∧ c'.op = .create c.op.name ∧ c'.start ≤ t ∧
          ∀ r t', c'.answer = some (r, t') → c.start ≤ t' :=
  hs.labels (fun _ h => h)

/-- C62: whenever calls are dropped, they do not keep others waiting: as long as a call is not
answered and not dropped, some call can go on, -/
theorem C62_no_deadlock {drops : Phase → Bool} (hs : Run true drops s) {i : Nat}
    {c : LabelCall L LayerName} (hc : s.calls i = some c) (ha : c.answer = none)
    (hn : s.phase i ≠ .dropped) : ∃ j s', Go true j s s' :=
  hs.progress hc ha hn

/-- and if no further calls are made and none is dropped any more, this cannot continue without
end. -/
theorem C62_calls_end {drops : Phase → Bool} (f : Nat → LockedLabels L)
    (hs : Run true drops (f 0)) : ∃ n, (∀ i, ¬ Go true i (f n) (f (n + 1))) := by
  suffices H : ∀ s : LockedLabels L, Acc (fun b a : LockedLabels L => ∃ i, Go true i a b) s →
      ∀ m, f m = s → ∃ n, (∀ i, ¬ Go true i (f n) (f (n + 1))) from H _ hs.ends 0 rfl
  intro s h
  induction h with
  | intro s _ ih =>
    intro m hm
    by_cases hg : ∃ i, Go true i (f m) (f (m + 1))
    · subst hm
      exact ih _ hg (m + 1) rfl
    · exact ⟨m, fun i hi => hg ⟨i, hi⟩⟩

/-! ### Executions with dropped calls -/

/-- Calls that take no part in an execution stay where they are. -/
theorem exec_phase {rl : Bool} {drops : Phase → Bool} {s : LockedLabels L} (as : List (Act L))
    {k : Nat} (h : ∀ a ∈ as, match a with | .call i _ => i ≠ k | .go i _ => i ≠ k | .drop i => i ≠ k) :
    (exec rl drops s as).phase k = s.phase k := by
  induction as generalizing s with
  | nil => rfl
  | cons a as ih =>
    rw [exec]
    split
    · rename_i s' hs
      rw [ih (fun a ha => h a (List.mem_cons_of_mem _ ha))]
      have ha := h a List.mem_cons_self
      cases a with
      | call i op =>
        have ha : i ≠ k := ha
        simp only [move] at hs
        split at hs
        · split at hs
          · cases hs
            exact upd_other _ _ (fun e => ha e.symm)
          · cases hs
        · cases hs
      | go i n =>
        have ha : i ≠ k := ha
        simp only [move] at hs
        split at hs
        · cases hs
        · rename_i c hi
          obtain ⟨q, _, h2⟩ := (next1_go hi hs).phase
          rw [h2]
          exact upd_other _ _ (fun e => ha e.symm)
      | drop i =>
        have ha : i ≠ k := ha
        simp only [move] at hs
        split at hs
        · cases hs
        · split at hs
          · cases hs
            exact upd_other _ _ (fun e => ha e.symm)
          · cases hs
    · rfl

/-- A reader is dropped while it reads and a writer while it waits for the reader; another writer
then goes on. A writer that has written all is dropped too. -/
def dropping : List (Act Nat) :=
  firstLabel ++ [.call 2 (.get 7), .call 3 (.set 7 ⟨some (nm 1), 1⟩ (some (nm 2))),
    .call 4 (.set 7 ⟨some (nm 1), 1⟩ (some (nm 3))), .go 2 0, .go 3 0, .go 4 0, .go 2 0, .go 2 1,
    .drop 2, .drop 3] ++ goes 4 8 ++ [.call 5 (.set 7 ⟨some (nm 3), 2⟩ (some (nm 4)))] ++ goes 5 7 ++
    [.drop 5, .call 6 (.get 7)] ++ goes 6 6

example : ∃ s : LockedLabels Nat, Run true dropsWhole s ∧
    s.phase 2 = .dropped ∧ s.phase 3 = .dropped ∧ s.phase 5 = .dropped ∧
    (s.calls 4).bind (·.answer.map (·.1)) = some (.set (some ⟨some (nm 3), 2⟩)) ∧
    (s.calls 5).map (·.answer) = some none ∧
    (s.calls 6).bind (·.answer.map (·.1)) = some (.got (some ⟨some (nm 4), 3⟩)) :=
  ⟨exec true dropsWhole {} dropping, exec_run .start _, by decide +kernel, by decide +kernel,
    by decide +kernel, by decide +kernel, by decide +kernel, by decide +kernel⟩

/-- A call waits for one that was dropped. -/
example : ∃ s : LockedLabels Nat, Run true allDrops s ∧ s.phase 2 = .dropped ∧
    s.phase 3 = .waiting 0 ∧ (s.calls 3).map (·.answer) = some none :=
  ⟨exec true allDrops {} (firstLabel ++ [.call 2 (.get 7),
    .call 3 (.set 7 ⟨some (nm 1), 1⟩ (some (nm 2))), .go 2 0, .go 3 0, .go 2 0, .go 2 1, .drop 2]),
    exec_run .start _, by decide +kernel, by decide +kernel, by decide +kernel⟩

/-- `set_label` is dropped after it has truncated the file. -/
def dropSet : List (Act Nat) :=
  firstLabel ++ [.call 2 (.set 7 ⟨some (nm 1), 1⟩ (some (nm 2)))] ++ goes 2 5 ++ [.drop 2]

/-- `create_label` is dropped after it has made the file. -/
def dropCreate : List (Act Nat) := [.call 0 (.create 7)] ++ goes 0 2 ++ [.drop 0]

/-- The calls of executions of three calls at most. -/
theorem phase_late {as : List (Act Nat)} (h : as.all (fun a => match a with
      | .call i _ => decide (i < 3) | .go i _ => decide (i < 3) | .drop i => decide (i < 3)) = true)
    {k : Nat} (hk : 3 ≤ k) : (exec true allDrops {} as).phase k = .begun := by
  refine exec_phase (s := {}) as (fun a ha => ?_)
  have := List.all_eq_true.1 h a ha
  cases a <;> (simp only [decide_eq_true_eq] at this ⊢; omega)

theorem calls_late {as : List (Act Nat)} (h : as.all (fun a => match a with
      | .call i _ => decide (i < 3) | _ => true) = true)
    {k : Nat} (hk : 3 ≤ k) : (exec true allDrops {} as).calls k = none := by
  cases hc : (exec true allDrops {} as).calls k with
  | none => rfl
  | some c =>
    rcases exec_calls as hc with ⟨c0, h1, _⟩ | h1
    · cases h1
    · have := List.all_eq_true.1 h _ h1
      simp only [decide_eq_true_eq] at this
      omega

/-- What new calls on a label that cannot be read are answered. -/
theorem Ruined.answers {s s' : LockedLabels L} {n : L} {x : Nat} {old : Nat → Prop}
    (h : Ruined n x old s) (hl : Later true allDrops s s')
    (hd : ∀ k c, s'.calls k = some c → c.op ≠ .delete n) {k : Nat} {c : LabelCall L LayerName}
    {r : LabelRes LayerName} {t : Nat} (hs : Run true allDrops s) (ho : ¬ old k)
    (hc : s'.calls k = some c) (hn : c.op.name = n) (ha : c.answer = some (r, t)) :
    r = .unreadable ∨ (r = .exists ∧ c.op = .create n) := by
  have hr : Run true allDrops s' := by
    clear hd hc
    induction hl with
    | now => exact hs
    | step _ h ih => exact ih.step h
  have hdone : s'.phase k = .done := by
    have := hr.fit.fits k c hc
    cases hp : s'.phase k with
    | done => rfl
    | begun => rw [hp] at this; rw [show c.answer = none from this] at ha; cases ha
    | unlocking => rw [hp] at this; rw [show c.answer = none from this] at ha; cases ha
    | returning => rw [hp] at this; rw [show c.answer = none from this] at ha; cases ha
    | dropped => rw [hp] at this; rw [show c.answer = none from this] at ha; cases ha
    | checked => rw [hp] at this; rw [this.1] at ha; cases ha
    | waiting => rw [hp] at this; rw [this.1] at ha; cases ha
    | made => rw [hp] at this; rw [this.1] at ha; cases ha
    | reading => rw [hp] at this; rw [this.1] at ha; cases ha
    | truncating => rw [hp] at this; rw [this.1] at ha; cases ha
    | writing => rw [hp] at this; rw [this.1] at ha; cases ha
  have hlost := (h.later hl hd).lost k c ho hc hn
  rw [hdone] at hlost
  rcases hlost with ⟨h1, _⟩ | ⟨h1, m, h2⟩
  · rw [ha] at h1
    exact Or.inl (Option.some.inj h1)
  · rw [ha] at h1
    rw [h2] at hn
    have hn : m = n := hn
    exact Or.inr ⟨Option.some.inj h1, by rw [h2, hn]⟩

/-- Not C62: if `set_label` is dropped between truncating the file and writing it, then the label,
which was there before, is lost: however the execution goes on, every later call that gets or sets
it fails and `create_label` says that it exists, until somebody deletes it. -/
theorem C62_drop_set_wrong : ∃ s : LockedLabels Nat, Run true allDrops s ∧
    (s.calls 1).bind (·.answer.map (·.1)) = some (.set (some ⟨some (nm 1), 1⟩)) ∧
    (s.calls 2).map (·.op) = some (.set 7 ⟨some (nm 1), 1⟩ (some (nm 2))) ∧ s.phase 2 = .dropped ∧
    (∀ k, 3 ≤ k → s.calls k = none) ∧
    ∀ s', Later true allDrops s s' → (∀ k c, s'.calls k = some c → c.op ≠ .delete 7) →
      ∀ k c r t, 3 ≤ k → s'.calls k = some c → c.op.name = 7 → c.answer = some (r, t) →
        r = .unreadable ∨ (r = .exists ∧ c.op = .create 7) := by
  refine ⟨exec true allDrops {} dropSet, exec_run .start _, by decide +kernel, by decide +kernel,
    by decide +kernel, fun k hk => calls_late (by decide) hk, ?_⟩
  intro s' hl hd k c r t hk hc hn ha
  refine Ruined.answers (x := 0) (old := fun k => k < 3) ?_ hl hd (exec_run .start _) (by omega) hc
    hn ha
  refine ⟨by decide +kernel, by decide +kernel, by decide +kernel, ?_, ?_⟩
  · intro j
    by_cases hj : 3 ≤ j
    · rw [phase_late (by decide) hj]
      trivial
    · have : j = 0 ∨ j = 1 ∨ j = 2 := by omega
      rcases this with rfl | rfl | rfl
      · rw [show (exec true allDrops {} dropSet).phase 0 = .done by decide +kernel]
        trivial
      · rw [show (exec true allDrops {} dropSet).phase 1 = .done by decide +kernel]
        trivial
      · rw [show (exec true allDrops {} dropSet).phase 2 = .dropped by decide +kernel]
        trivial
  · intro j cj ho hj
    rw [calls_late (by decide) (by omega)] at hj
    cases hj

/-- Not C62: if `create_label` is dropped between making the file and writing it, then there is a
label that cannot be read or set and cannot be created again, until somebody deletes it. -/
theorem C62_drop_create_wrong : ∃ s : LockedLabels Nat, Run true allDrops s ∧
    (s.calls 0).map (·.op) = some (.create 7) ∧ s.phase 0 = .dropped ∧
    (∀ k, 1 ≤ k → s.calls k = none) ∧
    ∀ s', Later true allDrops s s' → (∀ k c, s'.calls k = some c → c.op ≠ .delete 7) →
      ∀ k c r t, 1 ≤ k → s'.calls k = some c → c.op.name = 7 → c.answer = some (r, t) →
        r = .unreadable ∨ (r = .exists ∧ c.op = .create 7) := by
  have hnone : ∀ k, 1 ≤ k → (exec true allDrops {} dropCreate).calls k = none := by
    intro k hk
    by_cases h3 : 3 ≤ k
    · exact calls_late (by decide) h3
    · have : k = 1 ∨ k = 2 := by omega
      rcases this with rfl | rfl <;> decide +kernel
  refine ⟨exec true allDrops {} dropCreate, exec_run .start _, by decide +kernel, by decide +kernel,
    hnone, ?_⟩
  intro s' hl hd k c r t hk hc hn ha
  refine Ruined.answers (x := 0) (old := fun k => k < 1) ?_ hl hd (exec_run .start _) (by omega) hc
    hn ha
  refine ⟨by decide +kernel, by decide +kernel, by decide +kernel, ?_, ?_⟩
  · intro j
    by_cases hj : 3 ≤ j
    · rw [phase_late (by decide) hj]
      trivial
    · have : j = 0 ∨ j = 1 ∨ j = 2 := by omega
      rcases this with rfl | rfl | rfl
      · rw [show (exec true allDrops {} dropCreate).phase 0 = .dropped by decide +kernel]
        trivial
      · rw [show (exec true allDrops {} dropCreate).phase 1 = .begun by decide +kernel]
        trivial
      · rw [show (exec true allDrops {} dropCreate).phase 2 = .begun by decide +kernel]
        trivial
  · intro j cj ho hj
    rw [hnone j (by omega)] at hj
    cases hj

/-- There are such later calls, and deleting the label helps. -/
example : ∃ s : LockedLabels Nat, Run true allDrops s ∧
    (s.calls 3).bind (·.answer.map (·.1)) = some .unreadable ∧
    (s.calls 4).bind (·.answer.map (·.1)) = some .unreadable ∧
    (s.calls 5).bind (·.answer.map (·.1)) = some .exists ∧
    (s.calls 6).bind (·.answer.map (·.1)) = some (.deleted true) ∧
    (s.calls 7).bind (·.answer.map (·.1)) = some .created ∧
    (s.calls 8).bind (·.answer.map (·.1)) = some (.got (some ⟨none, 0⟩)) :=
  ⟨exec true allDrops {} (dropSet ++ [.call 3 (.get 7)] ++ goes 3 5 ++
    [.call 4 (.set 7 ⟨some (nm 1), 1⟩ none)] ++ goes 4 5 ++ [.call 5 (.create 7)] ++ goes 5 1 ++
    [.call 6 (.delete 7)] ++ goes 6 1 ++ [.call 7 (.create 7)] ++ goes 7 7 ++ [.call 8 (.get 7)] ++
    goes 8 6), exec_run .start _, by decide +kernel, by decide +kernel, by decide +kernel,
    by decide +kernel, by decide +kernel, by decide +kernel⟩

end LockedLabels

end Verif
