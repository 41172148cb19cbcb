import Verif.Props.Label
import Verif.Lemmas.LockedLin
import Verif.Lemmas.LockedProgress

/-!
C57: the file locks of the directory label store do what they are for. The calls are modelled one
system call at a time in `Verif/Model/LockedLabels.lean`.
-/

namespace Verif

open Spec

variable {L : Type} [DecidableEq L]

/-! ### Helpers -/

namespace DirLabels

/-- Calls are answered after they begin. -/
theorem Run.ordered {s : DirLabels L} (hs : s.Run) :
    (∀ k c, s.calls k = some c → c.start ≤ s.now) ∧
      ∀ k c r t, s.calls k = some c → c.answer = some (r, t) → c.start ≤ t := by
  induction hs with
  | start =>
    constructor
    · intro k c h
      cases h
    · intro k c r t h
      cases h
  | @step s s' _ h ih =>
    obtain ⟨ih1, ih2⟩ := ih
    have keep : s'.calls = s.calls → s'.now = s.now + 1 →
        (∀ k c, s'.calls k = some c → c.start ≤ s'.now) ∧
          ∀ k c r t, s'.calls k = some c → c.answer = some (r, t) → c.start ≤ t := by
      intro e1 e2
      rw [e1, e2]
      exact ⟨fun k c hc => Nat.le_succ_of_le (ih1 k c hc), ih2⟩
    have ans : ∀ i c r, s.calls i = some c →
        s'.calls = putCall s.calls i { c with answer := some (r, s.now) } → s'.now = s.now + 1 →
        (∀ k c, s'.calls k = some c → c.start ≤ s'.now) ∧
          ∀ k c r t, s'.calls k = some c → c.answer = some (r, t) → c.start ≤ t := by
      intro i c r hc e1 e2
      rw [e1, e2]
      constructor
      · intro k c' hk
        by_cases e : k = i
        · subst e
          rw [putCall_same] at hk
          cases hk
          exact Nat.le_succ_of_le (ih1 k c hc)
        · rw [putCall_other _ _ e] at hk
          exact Nat.le_succ_of_le (ih1 k c' hk)
      · intro k c' r' t hk ha
        by_cases e : k = i
        · subst e
          rw [putCall_same] at hk
          cases hk
          cases ha
          exact ih1 k c hc
        · rw [putCall_other _ _ e] at hk
          exact ih2 k c' r' t hk ha
    cases h with
    | @start i op h1 h2 =>
      constructor
      · intro k c hk
        have hk : putCall s.calls i ⟨op, s.now, none⟩ k = some c := hk
        by_cases e : k = i
        · subst e
          rw [putCall_same] at hk
          cases hk
          exact Nat.le_succ _
        · rw [putCall_other _ _ e] at hk
          exact Nat.le_succ_of_le (ih1 k c hk)
      · intro k c r t hk ha
        have hk : putCall s.calls i ⟨op, s.now, none⟩ k = some c := hk
        by_cases e : k = i
        · subst e
          rw [putCall_same] at hk
          cases hk
          cases ha
        · rw [putCall_other _ _ e] at hk
          exact ih2 k c r t hk ha
    | openFile h1 => exact keep rfl rfl
    | getMissing h1 => exact ans _ _ _ h1 rfl rfl
    | read h1 => exact ans _ _ _ h1 rfl rfl
    | setMissing h1 => exact ans _ _ _ h1 rfl rfl
    | write h1 => exact ans _ _ _ h1 rfl rfl
    | check h1 => exact keep rfl rfl
    | createExists h1 => exact ans _ _ _ h1 rfl rfl
    | make h1 => exact keep rfl rfl
    | fill h1 => exact ans _ _ _ h1 rfl rfl
    | unlink h1 => exact ans _ _ _ h1 rfl rfl

end DirLabels

namespace LockedLabels

set_option linter.unusedSectionVars false

open DirLabels (upd readResult)

variable {s : LockedLabels L} {d : DirLabels L} {φ : Nat → Nat}

/-- A call that is not answered in the simple system is not answered. -/
theorem At.unanswered {i : Nat} {c c' : LabelCall L LayerName} {p : Phase}
    (h : At s d φ i c c' p) (ha : c'.answer = none) : c.answer = none := by
  cases hc : c.answer with
  | none => rfl
  | some a =>
    obtain ⟨t', h1, _⟩ := h.answer (r := a.1) (t := a.2) hc
    rw [ha] at h1
    cases h1

/-- The locks make calls atomic, also if calls are dropped that do not write. -/
theorem Run.labels [Inhabited L] {drops : Phase → Bool}
    (hdrops : ∀ p, drops p = true → dropsWhole p = true) (hs : Run true drops s) :
    ∃ G, LinearizedBy sameLabel s.calls G ∧
      (∀ n, s.dir n = none → labelsAfter sameLabel G n = none) ∧
      (∀ n x, s.dir n = some x → ∃ l, labelsAfter sameLabel G n = some l ∧
        (readLabelFile (s.data x) = .ok l ∨
          ∃ k c, s.calls k = some c ∧ c.answer = none ∧ s.phase k ≠ .dropped ∧
            (c.op = .create n ∨ ∃ old layer, c.op = .set n old layer))) ∧
      ∀ k c t, s.calls k = some c → c.answer = some (.unreadable, t) →
        ∃ k' c', s.calls k' = some c' ∧ c'.op = .create c.op.name ∧ c'.start ≤ t ∧
          ∀ r t', c'.answer = some (r, t') → c.start ≤ t' := by
  obtain ⟨d, φ, h⟩ := hs.sim hdrops
  obtain ⟨g, G, hi⟩ := h.run.inv
  have e : labelsAfter sameLabel (G.map (retime (moments s d φ))) = labelsAfter sameLabel G :=
    stored_retime _ _ _ _
  refine ⟨_, h.lin hi.lin, ?_, ?_, ?_⟩
  · intro n hn
    rw [e]
    exact hi.gone n (by rw [h.dir]; exact hn)
  · intro n x hn
    rw [e]
    obtain ⟨h1, h2, h3⟩ := hi.inode n x (by rw [h.dir]; exact hn)
    refine ⟨g.label x, h3, ?_⟩
    by_cases hw : ∃ k pos rest r, s.phase k = .writing x pos rest r
    · obtain ⟨k, pos, rest, r, hp⟩ := hw
      right
      obtain ⟨c, hc⟩ := h.started (i := k) (by rw [hp]; intro e; cases e)
      obtain ⟨c', a1, a2, _, _, a5⟩ := h.call k c hc
      rw [hp] at a5
      obtain ⟨b1, _, _, _, _, b6⟩ := a5
      refine ⟨k, c, hc, b1, (by rw [hp]; intro e; cases e), ?_⟩
      rcases b6 with ⟨n', old, layer, b7, b8, _⟩ | ⟨n', b7, b8, _⟩
      · right
        have := (hi.opened k c' x a1 b8).2
        rw [a2, b7, h2] at this
        have this : n = n' := this
        exact ⟨old, layer, by rw [b7, this]⟩
      · left
        obtain ⟨_, _, _, m4, _⟩ := hi.made k c' x (by simp) a1 b8
        rw [← a2, m4, h2]
    · have hd := h.data x (fun k pos rest r hp => hw ⟨k, pos, rest, r, hp⟩)
      rcases hi.data x h1 with hl | hl
      · left
        rw [← hd, hl]
        exact readLabelFile_labelFile _ (hi.version x h1)
      · right
        obtain ⟨k, c', _, c1, c2⟩ := hi.empty x h1 hl
        obtain ⟨_, _, _, m4, _⟩ := hi.made k c' x (by simp) c1 c2
        have hun := hi.unanswered k c' c1 (by rw [c2]; simp)
        cases hc : s.calls k with
        | none =>
          rw [(h.fresh k hc).1] at c1
          cases c1
        | some c =>
          obtain ⟨c'', a1, a2, _, _, a5⟩ := h.call k c hc
          rw [c1] at a1
          cases a1
          exact ⟨k, c, hc, a5.unanswered hun,
            fun hp => by rw [hp] at a5; exact a5.2 x c2, Or.inl (by rw [← a2, m4, h2])⟩
  · intro k c t hc ha
    obtain ⟨c1, a1, a2, a3, a4, a5⟩ := h.call k c hc
    obtain ⟨u, b1, b2, b3⟩ := a5.answer ha
    obtain ⟨k', c2, d1, d2, d3, d4⟩ := hi.unread k c1 u a1 b1
    cases hc' : s.calls k' with
    | none =>
      rw [(h.fresh k' hc').1] at d1
      cases d1
    | some c' =>
      obtain ⟨c3, e1, e2, e3, e4, e5⟩ := h.call k' c' hc'
      rw [d1] at e1
      cases e1
      refine ⟨k', c', hc', by rw [← e2, d2, a2], ?_, ?_⟩
      · rw [← e3]
        exact Nat.le_trans (h.time.mono _ _ d3 b2) b3
      · intro r t' ha'
        obtain ⟨u', f1, f2, f3⟩ := e5.answer ha'
        have hu := d4 r u' f1
        have ho := h.run.ordered.2 k c1 _ u a1 b1
        rw [← a3]
        exact Nat.le_trans (h.time.mono _ _ (Nat.le_trans ho (Nat.le_of_lt hu)) f2) f3

theorem Go.phase {s s' : LockedLabels L} {rl : Bool} {i : Nat} (h : Go rl i s s') :
    ∃ q, q ≠ .dropped ∧ s'.phase = upd s.phase i q := by
  cases h <;> exact ⟨_, (by intro e; cases e), rfl⟩

/-- Without drops calls are not dropped. -/
theorem Run.not_dropped {rl : Bool} (hs : Run rl noDrops s) (i : Nat) : s.phase i ≠ .dropped := by
  induction hs with
  | start => intro e; cases e
  | step _ h ih =>
    cases h with
    | @start j =>
      show upd _ j Phase.begun i ≠ _
      unfold upd
      split
      · intro e; cases e
      · exact ih
    | go hg =>
      obtain ⟨q, h1, h2⟩ := hg.phase
      rw [h2]
      unfold upd
      split
      · exact h1
      · exact ih
    | drop _ _ h => cases h
    | dropDelete _ _ _ h => cases h

/-! ### C57: locks make calls atomic -/

/-- C57: each execution of callers of the directory store, whose system calls happen in any
order that the file locks allow, is as if the calls happened one at a time, each between call and
answer, on a map from names to labels with an update that compares whole labels: readers never
see a part of what another caller writes and no update is lost. The directory has a file for
exactly the labels in the map, and the file says what is in the map, unless a caller is about to
write it. Calls that fail because the file could not be read overlap with a `create` of the same
label. -/
theorem C57_locked_labels [Inhabited L] (hs : Run true noDrops s) :
    ∃ G, LinearizedBy sameLabel s.calls G ∧
      (∀ n, s.dir n = none → labelsAfter sameLabel G n = none) ∧
      (∀ n x, s.dir n = some x → ∃ l, labelsAfter sameLabel G n = some l ∧
        (readLabelFile (s.data x) = .ok l ∨
          ∃ k c, s.calls k = some c ∧ c.answer = none ∧
            (c.op = .create n ∨ ∃ old layer, c.op = .set n old layer))) ∧
      ∀ k c t, s.calls k = some c → c.answer = some (.unreadable, t) →
        ∃ k' c', s.calls k' = some c' ∧ c'.op = .create c.op.name ∧ c'.start ≤ t ∧
          ∀ r t', c'.answer = some (r, t') → c.start ≤ t' := by
  obtain ⟨G, h1, h2, h3, h4⟩ := hs.labels (fun p h => by cases h)
  refine ⟨G, h1, h2, fun n x hn => ?_, h4⟩
  obtain ⟨l, h5, h6⟩ := h3 n x hn
  refine ⟨l, h5, h6.imp id ?_⟩
  rintro ⟨k, c, k1, k2, _, k3⟩
  exact ⟨k, c, k1, k2, k3⟩

/-- C57: callers do not block each other for ever. As long as a call is not answered, some call
can go on, -/
theorem C57_no_deadlock (hs : Run true noDrops s) {i : Nat} {c : LabelCall L LayerName}
    (hc : s.calls i = some c) (ha : c.answer = none) : ∃ j s', Go true j s s' :=
  hs.progress hc ha (hs.not_dropped i)

/-- and if no further calls are made this cannot continue without end: then all calls are answered
after finitely many steps, whoever goes first. -/
theorem C57_calls_end (f : Nat → LockedLabels L) (hs : Run true noDrops (f 0)) :
    ∃ n, (∀ i, ¬ Go true i (f n) (f (n + 1))) := by
  suffices H : ∀ s : LockedLabels L, Acc (fun b a : LockedLabels L => ∃ i, Go true i a b) s →
      ∀ m, f m = s → ∃ n, (∀ i, ¬ Go true i (f n) (f (n + 1))) from H _ hs.ends 0 rfl
  intro s h
  induction h with
  | intro s _ ih =>
    intro m hm
    by_cases hg : ∃ i, Go true i (f m) (f (m + 1))
    · subst hm
      exact ih _ hg (m + 1) rfl
    · exact ⟨m, fun i hi => hg ⟨i, hi⟩⟩

/-! ### Executions that can be evaluated -/

/-- A call begins, or goes on; when it reads or writes, by `k + 1` bytes; or it is dropped. -/
inductive Act (L : Type) where
  | call (i : Nat) (op : LabelOp L LayerName)
  | go (i k : Nat)
  | drop (i : Nat)

/-- What a call does next, if it can. -/
def next1 (rl : Bool) (s : LockedLabels L) (i k : Nat) (c : LabelCall L LayerName) :
    Phase → Option (LockedLabels L)
  | .begun =>
    match c.op, s.dir c.op.name with
    | .get _, some x => some (s.goto i (.waiting x))
    | .get _, none => some (s.answer i c (.got none))
    | .set _ _ _, some x => some (s.goto i (.waiting x))
    | .set _ _ _, none => some (s.answer i c .missing)
    | .create _, none => some (s.goto i .checked)
    | .create _, some _ => some (s.answer i c .exists)
    | .delete n, _ =>
      some ({ s with dir := upd s.dir n none }.answer i c (.deleted (s.dir n).isSome))
  | .checked =>
    match c.op, s.dir c.op.name with
    | .create _, some _ => some (s.answer i c .exists)
    | .create n, none =>
      some ({ s with dir := upd s.dir n (some s.next)
                     data := upd s.data s.next []
                     next := s.next + 1 }.goto i (.made s.next))
    | _, _ => none
  | .waiting x =>
    match c.op, rl, s.exclusive x, s.shared x with
    | .get _, true, none, _ => some ((s.lockShared i x).goto i (.reading x []))
    | .get _, false, _, _ => some (s.goto i (.reading x []))
    | .set _ _ _, _, none, [] => some ((s.lockExclusive i x).goto i (.reading x []))
    | _, _, _, _ => none
  | .made x =>
    match s.exclusive x, s.shared x with
    | none, [] =>
      some ((s.lockExclusive i x).goto i (.writing x 0 (labelFile .newEmpty) .created))
    | _, _ => none
  | .reading x got =>
    if got.length < (s.data x).length then
      some (s.goto i (.reading x (got ++ readAt (s.data x) got.length k)))
    else
      match c.op with
      | .get _ => some (s.goto i (.unlocking x (readResult got)))
      | .set _ old _ =>
        match readLabelFile got with
        | .ok l => if l = old then some (s.goto i (.truncating x))
          else some (s.goto i (.unlocking x (.set none)))
        | _ => some (s.goto i (.unlocking x .unreadable))
      | _ => none
  | .truncating x =>
    match c.op with
    | .set _ old layer =>
      some ((s.putData x []).goto i
        (.writing x 0 (labelFile (old.withUpdatedLayer layer))
          (.set (some (old.withUpdatedLayer layer)))))
    | _ => none
  | .writing x pos rest r =>
    match rest with
    | [] => some (s.goto i (.unlocking x r))
    | b :: bs =>
      some ((s.putData x (writeAt (s.data x) pos ((b :: bs).take (k + 1)))).goto i
        (.writing x (pos + ((b :: bs).take (k + 1)).length) ((b :: bs).drop (k + 1)) r))
  | .unlocking x r => some ((s.unlock i x).goto i (.returning r))
  | .returning r => some (s.answer i c r)
  | .done => none
  | .dropped => none

theorem next1_go {rl : Bool} {s s' : LockedLabels L} {i k : Nat} {c : LabelCall L LayerName}
    (hc : s.calls i = some c) (hs : next1 rl s i k c (s.phase i) = some s') : Go rl i s s' := by
  cases hp : s.phase i with
  | begun =>
    rw [hp] at hs
    simp only [next1] at hs
    split at hs <;> rename_i h1 h2 <;> cases hs
    · exact .openFile hc hp (Or.inl ⟨_, h1⟩) h2
    · rw [h1] at h2; exact .getMissing hc hp h1 h2
    · exact .openFile hc hp (Or.inr ⟨_, _, _, h1⟩) h2
    · rw [h1] at h2; exact .setMissing hc hp h1 h2
    · rw [h1] at h2; exact .check hc hp h1 h2
    · rw [h1] at h2; exact .createExists hc (Or.inl hp) h1 h2
    · exact .unlink hc hp h2
  | checked =>
    rw [hp] at hs
    simp only [next1] at hs
    split at hs
    · rename_i h1 h2; cases hs
      rw [h1] at h2; exact .createExists hc (Or.inr hp) h1 h2
    · rename_i h1 h2; cases hs
      rw [h1] at h2; exact .make hc hp h1 h2
    · cases hs
  | waiting x =>
    rw [hp] at hs
    simp only [next1] at hs
    split at hs
    · rename_i h1 h2; cases hs
      exact .lockToRead rfl hc hp h1 h2
    · rename_i h1; cases hs
      exact .doNotLock rfl hc hp h1
    · rename_i h1 h2 h3; cases hs
      exact .lockToWrite hc hp h1 h2 h3
    · cases hs
  | made x =>
    rw [hp] at hs
    simp only [next1] at hs
    split at hs
    · rename_i h1 h2; cases hs
      exact .lockMade hp h1 h2
    · cases hs
  | reading x got =>
    rw [hp] at hs
    simp only [next1] at hs
    split at hs
    · rename_i h1; cases hs
      exact .readSome hp h1
    · rename_i h1
      have h1 : (s.data x).length ≤ got.length := by omega
      split at hs
      · rename_i h2; cases hs
        exact .readEnd hc hp h2 h1
      · rename_i h2
        split at hs
        · rename_i l h3
          split at hs
          · rename_i h4; cases hs
            subst h4
            exact .same hc hp h2 h1 h3
          · rename_i h4; cases hs
            exact .different hc hp h2 h1 h3 h4
        · rename_i h3; cases hs
          exact .broken hc hp h2 h1 h3
      · cases hs
  | truncating x =>
    rw [hp] at hs
    simp only [next1] at hs
    split at hs
    · rename_i h2; cases hs
      exact .truncate hc hp h2
    · cases hs
  | writing x pos rest r =>
    rw [hp] at hs
    simp only [next1] at hs
    split at hs
    · cases hs
      exact .writeEnd hp
    · cases hs
      exact .writeSome hp (by simp)
  | unlocking x r =>
    rw [hp] at hs
    cases hs
    exact .unlock hp
  | returning r =>
    rw [hp] at hs
    cases hs
    exact .finish hc hp
  | done =>
    rw [hp] at hs
    cases hs
  | dropped =>
    rw [hp] at hs
    cases hs

/-- One step, if possible. -/
def move (rl : Bool) (drops : Phase → Bool) (s : LockedLabels L) : Act L → Option (LockedLabels L)
  | .call i op =>
    match s.calls i with
    | none =>
      if DirLabels.small op then
        some { s with calls := putCall s.calls i ⟨op, s.now, none⟩
                      phase := upd s.phase i .begun
                      now := s.now + 1 }
      else none
    | some _ => none
  | .go i k =>
    match s.calls i with
    | none => none
    | some c => next1 rl s i k c (s.phase i)
  | .drop i =>
    match s.calls i with
    | none => none
    | some c => if c.answer = none ∧ drops (s.phase i) = true then some (s.drop i) else none

/-- Steps as long as they are possible. -/
def exec (rl : Bool) (drops : Phase → Bool) (s : LockedLabels L) : List (Act L) → LockedLabels L
  | [] => s
  | a :: as =>
    match move rl drops s a with
    | some s' => exec rl drops s' as
    | none => s

theorem exec_run {rl : Bool} {drops : Phase → Bool} {s : LockedLabels L} (h : Run rl drops s)
    (as : List (Act L)) : Run rl drops (exec rl drops s as) := by
  induction as generalizing s with
  | nil => exact h
  | cons a as ih =>
    rw [exec]
    split
    · rename_i s' hs
      refine ih (h.step ?_)
      cases a with
      | call i op =>
        simp only [move] at hs
        split at hs
        · rename_i hi
          split at hs
          · rename_i hm
            cases hs
            refine Step.start hi ?_
            intro n old layer ho
            rw [ho] at hm
            simpa [DirLabels.small] using hm
          · cases hs
        · cases hs
      | go i k =>
        simp only [move] at hs
        split at hs
        · cases hs
        · rename_i c hi
          exact .go (next1_go hi hs)
      | drop i =>
        simp only [move] at hs
        split at hs
        · cases hs
        · rename_i c hi
          split at hs
          · rename_i hd
            cases hs
            exact .drop hi hd.1 hd.2
          · cases hs
    · exact h

/-! ### Examples -/

/-- A call goes on `n` times, reading and writing much at a time. -/
def goes (i n : Nat) : List (Act L) := List.replicate n (.go i 99)

/-- Label 7 is created and set to layer 1. -/
def firstLabel : List (Act Nat) :=
  [.call 0 (.create 7)] ++ goes 0 7 ++ [.call 1 (.set 7 ⟨none, 0⟩ (some (nm 1)))] ++ goes 1 9

/-- Two readers read a part of the label, a writer waits for them, another writer comes too
late. -/
def crowd : List (Act Nat) :=
  firstLabel ++ [.call 2 (.get 7), .call 3 (.get 7), .call 4 (.set 7 ⟨some (nm 1), 1⟩ (some (nm 2))),
    .call 5 (.set 7 ⟨some (nm 1), 1⟩ (some (nm 3))), .go 4 0, .go 5 0, .go 2 0, .go 3 0, .go 2 0, .go 2 1,
    .go 3 0, .go 3 2] ++ goes 2 4 ++ goes 3 4 ++ [.go 4 0] ++ goes 4 7 ++ goes 5 5 ++
    [.call 6 (.get 7)] ++ goes 6 6

example : ∃ s : LockedLabels Nat, Run true noDrops s ∧
    (s.calls 2).bind (·.answer.map (·.1)) = some (.got (some ⟨some (nm 1), 1⟩)) ∧
    (s.calls 3).bind (·.answer.map (·.1)) = some (.got (some ⟨some (nm 1), 1⟩)) ∧
    (s.calls 4).bind (·.answer.map (·.1)) = some (.set (some ⟨some (nm 2), 2⟩)) ∧
    (s.calls 5).bind (·.answer.map (·.1)) = some (.set none) ∧
    (s.calls 6).bind (·.answer.map (·.1)) = some (.got (some ⟨some (nm 2), 2⟩)) :=
  ⟨exec true noDrops {} crowd, exec_run .start _, by decide +kernel, by decide +kernel, by decide +kernel,
    by decide +kernel, by decide +kernel⟩

/-- A writer waits while a reader has the lock. -/
example : ∃ s : LockedLabels Nat, Run true noDrops s ∧ s.phase 3 = .waiting 0 ∧
    s.shared 0 = [2] ∧ (s.calls 3).map (·.answer) = some none :=
  ⟨exec true noDrops {} (firstLabel ++ [.call 2 (.get 7), .call 3 (.set 7 ⟨some (nm 1), 1⟩ none), .go 2 0,
    .go 3 0, .go 2 0, .go 3 0]), exec_run .start _, by decide +kernel, by decide +kernel, by decide +kernel⟩

/-- A reader has read two bytes, then the label is replaced, then the reader goes on. -/
def torn : List (Act Nat) :=
  firstLabel ++ [.call 2 (.get 7), .go 2 0, .go 2 0, .go 2 1,
    .call 3 (.set 7 ⟨some (nm 1), 1⟩ (some (nm 2)))] ++ goes 3 9 ++ goes 2 4

/-- A label that is stored was new or came from an update. -/
theorem stored_from {N : Type} {same : LabelData N → LabelData N → Bool} {m : Labels L N}
    {G : List (LabelEvent L N)} {n : L} {l : LabelData N} (h : stored same m G n = some l) :
    m n = some l ∨ l = ⟨none, 0⟩ ∨
      ∃ e ∈ G, ∃ old layer, e.op = .set n old layer ∧ l = updated old layer := by
  induction G generalizing m with
  | nil => exact Or.inl h
  | cons e G ih =>
    rcases ih h with h1 | h1 | ⟨e', h1, h2⟩
    · cases ho : e.op with
      | create k =>
        rw [ho, callOn] at h1
        cases hk : m k with
        | some x =>
          rw [hk] at h1
          exact Or.inl h1
        | none =>
          rw [hk] at h1
          by_cases e : n = k
          · simp only [Labels.put, if_pos e] at h1
            cases h1
            exact Or.inr (Or.inl rfl)
          · simp only [Labels.put, if_neg e] at h1
            exact Or.inl h1
      | get k =>
        rw [ho] at h1
        exact Or.inl h1
      | set k old layer =>
        rw [ho, callOn] at h1
        cases hk : m k with
        | none =>
          rw [hk] at h1
          exact Or.inl h1
        | some x =>
          rw [hk] at h1
          dsimp only at h1
          split at h1
          · by_cases e : n = k
            · simp only [Labels.put, if_pos e] at h1
              cases h1
              subst e
              exact Or.inr (Or.inr ⟨_, List.mem_cons_self, old, layer, ho, rfl⟩)
            · simp only [Labels.put, if_neg e] at h1
              exact Or.inl h1
          · exact Or.inl h1
      | delete k =>
        rw [ho, callOn] at h1
        by_cases e : n = k
        · simp only [Labels.put, if_pos e] at h1
          cases h1
        · simp only [Labels.put, if_neg e] at h1
          exact Or.inl h1
    · exact Or.inr (Or.inl h1)
    · exact Or.inr (Or.inr ⟨e', List.mem_cons_of_mem _ h1, h2⟩)

/-- A read that took effect returned a label that was new or came from an update. -/
theorem answered_from {N : Type} {same : LabelData N → LabelData N → Bool} {m : Labels L N}
    {G : List (LabelEvent L N)} (h : Answered same m G) {e : LabelEvent L N} (he : e ∈ G) {n : L}
    {l : LabelData N} (ho : e.op = .get n) (hr : e.res = .got (some l)) :
    m n = some l ∨ l = ⟨none, 0⟩ ∨
      ∃ e ∈ G, ∃ old layer, e.op = .set n old layer ∧ l = updated old layer := by
  induction G generalizing m with
  | nil => cases he
  | cons e' G ih =>
    rcases List.mem_cons.1 he with rfl | he
    · have := h.1
      rw [ho, hr, callOn] at this
      injection this with this
      exact Or.inl this.symm
    · rcases ih h.2 he with h1 | h1 | ⟨e'', h1, h2⟩
      · rcases stored_from (same := same) (m := m) (G := [e']) h1 with h2 | h2 | ⟨e'', h2, h3⟩
        · exact Or.inl h2
        · exact Or.inr (Or.inl h2)
        · exact Or.inr (Or.inr ⟨e'', List.mem_cons.2 (Or.inl (List.mem_singleton.1 h2)), h3⟩)
      · exact Or.inr (Or.inl h1)
      · exact Or.inr (Or.inr ⟨e'', List.mem_cons_of_mem _ h1, h2⟩)

/-- Calls stay what they are. -/
theorem Go.op {rl : Bool} {s s' : LockedLabels L} {i : Nat} (h : Go rl i s s') {k : Nat}
    {c : LabelCall L LayerName} (hk : s'.calls k = some c) :
    ∃ c0, s.calls k = some c0 ∧ c0.op = c.op := by
  have ans : ∀ c' r t, s.calls i = some c' →
      putCall s.calls i { c' with answer := some (r, t) } k = some c →
      ∃ c0, s.calls k = some c0 ∧ c0.op = c.op := by
    intro c' r t hc hp
    by_cases e : k = i
    · rw [e, putCall_same] at hp
      cases hp
      exact ⟨c', by rw [e, hc], rfl⟩
    · rw [putCall_other _ _ e] at hp
      exact ⟨c, hp, rfl⟩
  cases h with
  | getMissing h1 => exact ans _ _ _ h1 hk
  | setMissing h1 => exact ans _ _ _ h1 hk
  | finish h1 => exact ans _ _ _ h1 hk
  | createExists h1 => exact ans _ _ _ h1 hk
  | unlink h1 => exact ans _ _ _ h1 hk
  | openFile => exact ⟨c, hk, rfl⟩
  | lockToRead => exact ⟨c, hk, rfl⟩
  | doNotLock => exact ⟨c, hk, rfl⟩
  | lockToWrite => exact ⟨c, hk, rfl⟩
  | readSome => exact ⟨c, hk, rfl⟩
  | readEnd => exact ⟨c, hk, rfl⟩
  | same => exact ⟨c, hk, rfl⟩
  | different => exact ⟨c, hk, rfl⟩
  | broken => exact ⟨c, hk, rfl⟩
  | truncate => exact ⟨c, hk, rfl⟩
  | writeSome => exact ⟨c, hk, rfl⟩
  | writeEnd => exact ⟨c, hk, rfl⟩
  | unlock => exact ⟨c, hk, rfl⟩
  | check => exact ⟨c, hk, rfl⟩
  | make => exact ⟨c, hk, rfl⟩
  | lockMade => exact ⟨c, hk, rfl⟩

/-- The calls of an execution are those that it begins. -/
theorem exec_calls {rl : Bool} {drops : Phase → Bool} {s : LockedLabels L} (as : List (Act L)) {k : Nat}
    {c : LabelCall L LayerName} (hk : (exec rl drops s as).calls k = some c) :
    (∃ c0, s.calls k = some c0 ∧ c0.op = c.op) ∨ Act.call k c.op ∈ as := by
  induction as generalizing s with
  | nil => exact Or.inl ⟨c, hk, rfl⟩
  | cons a as ih =>
    rw [exec] at hk
    split at hk
    · rename_i s' hs
      rcases ih hk with ⟨c0, h1, h2⟩ | h1
      · cases a with
        | call i op =>
          simp only [move] at hs
          split at hs
          · split at hs
            · cases hs
              simp only [putCall] at h1
              split at h1
              · rename_i e
                cases h1
                subst e
                right
                rw [← h2]
                exact List.mem_cons_self
              · exact Or.inl ⟨c0, h1, h2⟩
            · cases hs
          · cases hs
        | go i n =>
          simp only [move] at hs
          split at hs
          · cases hs
          · rename_i c' hi
            obtain ⟨c1, h3, h4⟩ := (next1_go hi hs).op h1
            exact Or.inl ⟨c1, h3, h4.trans h2⟩
        | drop i =>
          simp only [move] at hs
          split at hs
          · cases hs
          · split at hs
            · cases hs
              exact Or.inl ⟨c0, h1, h2⟩
            · cases hs
      · exact Or.inr (List.mem_cons_of_mem _ h1)
    · exact Or.inl ⟨c, hk, rfl⟩

/-- Not C57: with the feature `noreadlock` a reader can get a label that was never stored: the
version of one and the layer of another. The calls are not as if they happened one at a time. -/
theorem C57_noreadlock_wrong : ∃ s : LockedLabels Nat, Run false noDrops s ∧
    (s.calls 2).bind (·.answer.map (·.1)) = some (.got (some ⟨some (nm 2), 1⟩)) ∧
    ¬ ∃ G, LinearizedBy sameLabel s.calls G := by
  refine ⟨exec false noDrops {} torn, exec_run .start _, by decide +kernel, ?_⟩
  rintro ⟨G, hG⟩
  have hc : ∃ t u, (exec false noDrops {} torn).calls 2 =
      some ⟨.get 7, t, some (.got (some ⟨some (nm 2), 1⟩), u)⟩ :=
    ⟨18, 35, by decide +kernel⟩
  obtain ⟨t, u, hc⟩ := hc
  obtain ⟨e, he, hi⟩ := hG.complete 2 _ _ _ hc rfl (by intro h; cases h)
  obtain ⟨c', d1, d2, _, d4⟩ := hG.sound e he
  rw [hi, hc] at d1
  cases d1
  obtain ⟨d5, _⟩ := d4 _ _ rfl
  rcases answered_from hG.answered he d2.symm d5.symm with h | h | ⟨e', h1, old, layer, h2, h3⟩
  · cases h
  · cases h
  · obtain ⟨c', f1, f2, _⟩ := hG.sound e' h1
    rcases exec_calls torn f1 with ⟨c0, g1, _⟩ | g1
    · cases g1
    · rw [f2, h2] at g1
      have hl : layer = some (nm 2) := by
        simp only [updated, LabelData.mk.injEq] at h3
        exact h3.1.symm
      have hv : old.version = 0 := by
        simp only [updated, LabelData.mk.injEq] at h3
        omega
      subst hl
      simp [torn, firstLabel, goes] at g1
      rcases g1 with ⟨_, _, g⟩ | ⟨_, g⟩
      · exact absurd g (by decide)
      · rw [g] at hv
        cases hv

end LockedLabels

end Verif
