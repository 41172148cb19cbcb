import Verif.Lemmas.LockedRollupsEnd

/-!
C59: the rollups of an archive store, read and registered by any number of callers, also in several
processes. The calls are modelled one system call at a time in `Verif/Model/LockedRollups.lean`.
-/

namespace Verif

open Spec

namespace LockedRollups

variable {s : LockedRollups} {drops : RollupOp LayerName → Bool}

/-! ### What the registry says -/

theorem reg_written {m : LayerName → Option (Option LayerName)} {G : List Eff} {n r : LayerName}
    (h : stateAfter rollupCall m G n = some (some r)) :
    m n = some (some r) ∨ ∃ e ∈ G, e.op = .set n r := by
  induction G generalizing m with
  | nil => exact Or.inl h
  | cons e G ih =>
    rcases ih h with h1 | ⟨f, hf, h1⟩
    · cases ho : e.op with
      | store k =>
        rw [ho] at h1
        replace h1 : (if n = k then some ((m k).getD none) else m n) = some (some r) := h1
        split at h1
        · rename_i e1
          subst e1
          refine Or.inl ?_
          cases hm : m n with
          | none => rw [hm] at h1; cases h1
          | some x => rw [hm] at h1; exact h1
        · exact Or.inl h1
      | get k => rw [ho] at h1; exact Or.inl h1
      | set k q =>
        rw [ho] at h1
        simp only [rollupCall] at h1
        split at h1
        · exact Or.inl h1
        · replace h1 : (if n = k then some (some q) else m n) = some (some r) := h1
          split at h1
          · rename_i e1
            subst e1
            cases h1
            exact Or.inr ⟨e, List.mem_cons_self, ho⟩
          · exact Or.inl h1
    · exact Or.inr ⟨f, List.mem_cons_of_mem _ hf, h1⟩

theorem reg_stays {m : LayerName → Option (Option LayerName)} (G : List Eff) {n : LayerName}
    (h : ∃ r, m n = some (some r)) : ∃ r, stateAfter rollupCall m G n = some (some r) := by
  induction G generalizing m with
  | nil => exact h
  | cons e G ih =>
    refine ih ?_
    obtain ⟨r, hr⟩ := h
    cases ho : e.op with
    | store k =>
      show ∃ r, (if n = k then some ((m k).getD none) else m n) = some (some r)
      split
      · rename_i e1
        subst e1
        exact ⟨r, by rw [hr]; rfl⟩
      · exact ⟨r, hr⟩
    | get k => exact ⟨r, hr⟩
    | set k q =>
      simp only [rollupCall]
      split
      · exact ⟨r, hr⟩
      · show ∃ r, (if n = k then some (some q) else m n) = some (some r)
        split
        · exact ⟨q, rfl⟩
        · exact ⟨r, hr⟩

/-! ### The property -/

/-- C59, if calls that write are not dropped: the calls are as if made one at a time, each at some
moment while it was under way; what a call reads is never a part of what another one writes. -/
theorem C59_linearizable (hd : ∀ n r, drops (.set n r) = false) (hs : Run true drops s) :
    ∃ G, RollupsLinearized s.calls G := by
  obtain ⟨G, h⟩ := hs.inv hd
  exact ⟨G, h.lin⟩

/-- C59: no call panics or finds something that it cannot read. -/
theorem C59_no_panic (hd : ∀ n r, drops (.set n r) = false) (hs : Run true drops s)
    {i : Nat} {c : TC} {r : RollupRes LayerName} {t : Nat} (hc : s.calls i = some c)
    (ha : c.answer = some (r, t)) : r = .done ∨ r = .missing ∨ ∃ q, r = .got q := by
  obtain ⟨G, h⟩ := hs.inv hd
  obtain ⟨e, he, hid⟩ := h.lin.complete i c r t hc ha (fun h => h)
  obtain ⟨d, h1, h2, -, h4⟩ := h.lin.sound e he
  rw [hid, hc] at h1
  cases h1
  obtain ⟨rfl, -⟩ := h4 r t ha
  obtain ⟨A, B, hG⟩ := List.append_of_mem he
  have hrep := h.lin.replays
  rw [hG, replays_append] at hrep
  obtain ⟨-, hres, -⟩ := hrep
  rw [hres]
  cases e.op with
  | store n => exact Or.inl rfl
  | get n => exact Or.inr (Or.inr ⟨_, rfl⟩)
  | set n q =>
    simp only [rollupCall]
    split
    · exact Or.inr (Or.inl rfl)
    · exact Or.inl rfl

/-- C59: a rollup that a call got was registered by a call that began before that one returned. -/
theorem C59_read_written (hd : ∀ n r, drops (.set n r) = false) (hs : Run true drops s)
    {i : Nat} {c : TC} {n r : LayerName} {t : Nat} (hc : s.calls i = some c) (ho : c.op = .get n)
    (ha : c.answer = some (.got (some r), t)) :
    ∃ j d, s.calls j = some d ∧ d.op = .set n r ∧ d.start < t := by
  obtain ⟨G, h⟩ := hs.inv hd
  obtain ⟨e, he, hid⟩ := h.lin.complete i c _ t hc ha (fun h => h)
  obtain ⟨d, h1, h2, -, h4⟩ := h.lin.sound e he
  rw [hid, hc] at h1
  cases h1
  obtain ⟨hr, ht⟩ := h4 _ t ha
  obtain ⟨A, B, hG⟩ := List.append_of_mem he
  have hrep := h.lin.replays
  rw [hG, replays_append] at hrep
  obtain ⟨-, hres, -⟩ := hrep
  rw [← h2, ho, hr] at hres
  have hq : (stateAfter rollupCall (fun _ => none) A n).getD none = some r := by
    have : RollupRes.got (some r) =
      .got ((stateAfter rollupCall (fun _ => none) A n).getD none) := hres
    exact (RollupRes.got.inj this).symm
  have hq' : stateAfter rollupCall (fun _ => none) A n = some (some r) := by
    cases hm : stateAfter rollupCall (fun _ => none) A n with
    | none => rw [hm] at hq; cases hq
    | some x =>
      rw [hm] at hq
      exact congrArg some hq
  rcases reg_written hq' with h5 | ⟨f, hf, h5⟩
  · cases h5
  · have hfG : f ∈ G := by rw [hG]; exact List.mem_append_left _ hf
    obtain ⟨d, g1, g2, g3, -⟩ := h.lin.sound f hfG
    refine ⟨f.id, d, g1, g2.trans h5, ?_⟩
    have hs' := h.lin.sorted
    rw [hG, List.pairwise_append] at hs'
    have := hs'.2.2 f hf e List.mem_cons_self
    omega

/-- C59: who asks after a rollup was registered gets one. -/
theorem C59_read_after (hd : ∀ n r, drops (.set n r) = false) (hs : Run true drops s)
    {i j : Nat} {c d : TC} {n r : LayerName} {t u : Nat} {q : Option LayerName}
    (hj : s.calls j = some d) (hjo : d.op = .set n r) (hja : d.answer = some (.done, u))
    (hc : s.calls i = some c) (ho : c.op = .get n) (hlt : u < c.start)
    (ha : c.answer = some (.got q, t)) : ∃ r', q = some r' := by
  obtain ⟨G, h⟩ := hs.inv hd
  obtain ⟨e, he, hid⟩ := h.lin.complete i c _ t hc ha (fun h => h)
  obtain ⟨c', h1, h2, h3, h4⟩ := h.lin.sound e he
  rw [hid, hc] at h1
  cases h1
  obtain ⟨hr, ht⟩ := h4 _ t ha
  obtain ⟨f, hf, hfid⟩ := h.lin.complete j d _ u hj hja (fun h => h)
  obtain ⟨d', g1, g2, g3, g4⟩ := h.lin.sound f hf
  rw [hfid, hj] at g1
  cases g1
  obtain ⟨gr, gt⟩ := g4 _ u hja
  obtain ⟨A, B, C, hG⟩ := h.lin.order hf he (by omega)
  have hrep := h.lin.replays
  rw [hG, replays_append] at hrep
  obtain ⟨-, fres, hrep⟩ := hrep
  rw [replays_append] at hrep
  obtain ⟨-, eres, -⟩ := hrep
  rw [← g2, hjo, gr] at fres
  have hset : ((rollupCall (stateAfter rollupCall (fun _ => none) A) f.op).2) n = some (some r) := by
    rw [← g2, hjo]
    simp only [rollupCall] at fres ⊢
    split
    · rename_i hnone
      rw [hnone] at fres
      cases fres
    · simp
  obtain ⟨r', hr'⟩ := reg_stays B ⟨r, hset⟩
  rw [← h2, ho, hr] at eres
  have : RollupRes.got q = .got ((stateAfter rollupCall
    (rollupCall (stateAfter rollupCall (fun _ => none) A) f.op).2 B n).getD none) := eres
  rw [hr'] at this
  exact ⟨r', RollupRes.got.inj this⟩

/-- C59: calls do not block each other: as long as one is under way, some call can go on, -/
theorem C59_no_deadlock (hd : ∀ n r, drops (.set n r) = false) (hs : Run true drops s) {i : Nat}
    {c : TC} (hc : s.calls i = some c) (ha : c.answer = none) (hp : s.phase i ≠ .dropped) :
    ∃ j s', Go true j s s' := by
  obtain ⟨G, h⟩ := hs.inv hd
  exact h.progress hc ha hp

/-- and if no further calls are made this comes to an end, whoever goes first. -/
theorem C59_calls_end (hd : ∀ n r, drops (.set n r) = false) (f : Nat → LockedRollups)
    (hs : Run true drops (f 0)) : ∃ n, ∀ i, ¬ Go true i (f n) (f (n + 1)) := by
  suffices H : ∀ s : LockedRollups, Acc (fun b a : LockedRollups => ∃ i, Go true i a b) s →
      ∀ m, f m = s → ∃ n, ∀ i, ¬ Go true i (f n) (f (n + 1)) from H _ (hs.ends hd) 0 rfl
  intro s h
  induction h with
  | intro s _ ih =>
    intro m hm
    by_cases hg : ∃ i, Go true i (f m) (f (m + 1))
    · subst hm
      exact ih _ hg (m + 1) rfl
    · exact ⟨m, fun i hi => hg ⟨i, hi⟩⟩

/-! ### Executions that can be evaluated -/

/-- A call begins, goes on by `k + 1` bytes at most, or is dropped. -/
inductive Act where
  | call (i : Nat) (op : RollupOp LayerName)
  | go (i k : Nat)
  | drop (i : Nat)

/-- What happens. -/
def act (rl : Bool) (drops : RollupOp LayerName → Bool) (s : LockedRollups) : Act → LockedRollups
  | .call i op =>
    match s.calls i with
    | none => { s with calls := upd s.calls i (some ⟨op, s.now, none⟩)
                       phase := upd s.phase i .begun
                       now := s.now + 1 }
    | some _ => s
  | .go i k =>
    match s.calls i with
    | none => s
    | some c =>
      match next rl s i k c with
      | none => s
      | some s' => s'
  | .drop i =>
    match s.calls i with
    | none => s
    | some c =>
      match c.answer, drops c.op with
      | none, true => s.drop i c.op.name
      | _, _ => s

theorem act_run {rl : Bool} (hs : Run rl drops s) (a : Act) : Run rl drops (act rl drops s a) := by
  cases a with
  | call i op =>
    simp only [act]
    split
    · rename_i h
      exact hs.step (.start h)
    · exact hs
  | go i k =>
    simp only [act]
    split
    · exact hs
    · rename_i c h
      split
      · exact hs
      · rename_i s' h2
        exact hs.step (.go ⟨k, c, h, h2⟩)
  | drop i =>
    simp only [act]
    split
    · exact hs
    · rename_i c h
      split
      · rename_i h1 h2
        exact hs.step (.drop h h1 h2)
      · exact hs

/-- Some things happen one after the other. -/
def exec (rl : Bool) (drops : RollupOp LayerName → Bool) (s : LockedRollups) :
    List Act → LockedRollups
  | [] => s
  | a :: as => exec rl drops (act rl drops s a) as

theorem exec_run {rl : Bool} {s : LockedRollups} (hs : Run rl drops s) (as : List Act) :
    Run rl drops (exec rl drops s as) := by
  induction as generalizing s with
  | nil => exact hs
  | cons a as ih => exact ih (act_run hs a)

/-- What a call was answered. -/
def answered (s : LockedRollups) (i : Nat) : Option (RollupRes LayerName) :=
  (s.calls i).bind (fun c => c.answer.map (·.1))

/-- A call goes on until it has returned, by 20 bytes at a time. -/
def whole (i : Nat) : List Act := List.replicate 12 (.go i 19)

private def m1 : LayerName := ⟨1, 2, 3, 4, 5⟩
private def m2 : LayerName := ⟨6, 7, 8, 9, 10⟩
private def m3 : LayerName := ⟨11, 12, 13, 14, 15⟩

/-- A layer is stored and a rollup registered; then one call reads, in parts, while another one
registers another rollup and has to wait; then it is read again. -/
def story : List Act :=
  [.call 0 (.store m1)] ++ whole 0 ++ [.call 1 (.set m1 m2)] ++ whole 1 ++
  [.call 2 (.get m1), .go 2 5, .go 2 5, .go 2 5, .go 2 5, .call 3 (.set m1 m3), .go 3 5, .go 3 5,
    .go 2 5, .go 3 5, .go 2 40, .go 2 40, .go 2 0, .go 3 0, .go 3 0, .go 3 5, .go 2 0] ++
  whole 3 ++ [.call 4 (.get m1)] ++ whole 4

/-- The theorems above are about executions such as this one. -/
example : Run true dropsReads (exec true dropsReads {} story) ∧
    answered (exec true dropsReads {} story) 1 = some .done ∧
    answered (exec true dropsReads {} story) 2 = some (.got (some m2)) ∧
    answered (exec true dropsReads {} story) 3 = some .done ∧
    answered (exec true dropsReads {} story) 4 = some (.got (some m3)) :=
  ⟨exec_run .start _, by decide +kernel, by decide +kernel, by decide +kernel, by decide +kernel⟩

example : ∀ n r, dropsReads (.set n r) = false := fun _ _ => rfl

/-- A rollup is registered while another call reads. -/
def torn : List Act :=
  [.call 0 (.store m1)] ++ whole 0 ++ [.call 1 (.set m1 m2), .go 1 0, .go 1 0, .go 1 0] ++
  [.call 2 (.get m1)] ++ whole 2 ++ whole 1

/-- C59 is false if the code is built with the feature `noreadlock`: a call that reads while another
one writes can panic. -/
theorem C59_noreadlock_wrong : ∃ s, Run false noDrops s ∧ answered s 1 = some .done ∧
    answered s 2 = some .panicked :=
  ⟨exec false noDrops {} torn, exec_run .start _, by decide +kernel, by decide +kernel⟩

/-- With locks the same calls wait for each other. -/
example : answered (exec true noDrops {} (torn ++ whole 2)) 2 = some (.got (some m2)) := by
  decide +kernel

/-- A call that writes is dropped in the middle. -/
def cut : List Act :=
  [.call 0 (.store m1)] ++ whole 0 ++ [.call 1 (.set m1 m2), .go 1 0, .go 1 0, .go 1 0, .drop 1] ++
  [.call 2 (.get m1)] ++ whole 2 ++ [.call 3 (.get m1)] ++ whole 3

/-- C59 is false if the future of a call that writes is dropped before it is done: from then on all
that ask panic, until the rollup is registered again. -/
theorem C59_drop_wrong : ∃ s, Run true (fun _ => true) s ∧ answered s 2 = some .panicked ∧
    answered s 3 = some .panicked :=
  ⟨exec true (fun _ => true) {} cut, exec_run .start _, by decide +kernel, by decide +kernel⟩

end LockedRollups

end Verif
