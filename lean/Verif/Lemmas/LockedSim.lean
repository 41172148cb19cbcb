import Verif.Model.LockedLabels
import Verif.Lemmas.LabelFile

/-!
The directory store on file locks, one system call at a time, does what it does when all that
happens under a lock is one step.
-/

namespace Verif

open Spec

variable {L : Type} [DecidableEq L]

namespace LockedLabels

set_option linter.unusedSectionVars false

open DirLabels (upd readResult setResult)

theorem upd_same {α β : Type} [DecidableEq α] (f : α → β) (a : α) (b : β) : upd f a b a = b := by
  simp [upd]

theorem upd_other {α β : Type} [DecidableEq α] (f : α → β) {a x : α} (b : β) (h : x ≠ a) :
    upd f a b x = f x := by
  simp [upd, h]

/-! ### Clocks -/

/-- `φ` tells when the steps before `a` of one clock happened on another one that is at `b`. -/
structure Time (φ : Nat → Nat) (a b : Nat) : Prop where
  mono : ∀ x y, x ≤ y → y < a → φ x ≤ φ y
  past : ∀ x, x < a → φ x < b

theorem Time.both {φ : Nat → Nat} {a b : Nat} (h : Time φ a b) :
    Time (upd φ a b) (a + 1) (b + 1) := by
  constructor
  · intro x y hxy hy
    by_cases hya : y = a
    · subst hya
      rw [upd_same]
      by_cases hxa : x = y
      · rw [hxa, upd_same]
        exact Nat.le_refl _
      · rw [upd_other _ _ hxa]
        exact Nat.le_of_lt (h.past x (by omega))
    · rw [upd_other _ _ hya, upd_other _ _ (by omega)]
      exact h.mono x y hxy (by omega)
  · intro x hx
    by_cases hxa : x = a
    · rw [hxa, upd_same]
      omega
    · rw [upd_other _ _ hxa]
      have := h.past x (by omega)
      omega

theorem Time.one {φ : Nat → Nat} {a b : Nat} (h : Time φ a b) : Time φ a (b + 1) :=
  ⟨h.mono, fun x hx => Nat.lt_succ_of_lt (h.past x hx)⟩

/-! ### The relation -/

/-- Call `i` of the detailed system and of the simple one, when the former is in this phase. -/
def At (s : LockedLabels L) (d : DirLabels L) (φ : Nat → Nat) (i : Nat)
    (c c' : LabelCall L LayerName) : Phase → Prop
  | .begun => c.answer = none ∧ c'.answer = none ∧ d.phase i = .begun
  | .checked => c.answer = none ∧ c'.answer = none ∧ d.phase i = .checked ∧ ∃ n, c.op = .create n
  | .waiting x => c.answer = none ∧ c'.answer = none ∧ d.phase i = .opened x ∧ x < s.next ∧
      ((∃ n, c.op = .get n) ∨ ∃ n old layer, c.op = .set n old layer)
  | .made x => c.answer = none ∧ c'.answer = none ∧ d.phase i = .made x ∧ x < s.next ∧
      (∃ n, c.op = .create n) ∧ s.data x = [] ∧ d.data x = []
  | .reading x got => c.answer = none ∧ c'.answer = none ∧ d.phase i = .opened x ∧ x < s.next ∧
      got = (s.data x).take got.length ∧
      (((∃ n, c.op = .get n) ∧ i ∈ s.shared x) ∨
        ((∃ n old layer, c.op = .set n old layer) ∧ s.exclusive x = some i))
  | .truncating x => c.answer = none ∧ c'.answer = none ∧ d.phase i = .opened x ∧ x < s.next ∧
      s.exclusive x = some i ∧
      ∃ n old layer, c.op = .set n old layer ∧ readLabelFile (s.data x) = .ok old
  | .writing x pos rest r => c.answer = none ∧ c'.answer = none ∧ x < s.next ∧
      s.exclusive x = some i ∧ pos = (s.data x).length ∧
      ((∃ n old layer, c.op = .set n old layer ∧ d.phase i = .opened x ∧
          readLabelFile (d.data x) = .ok old ∧
          s.data x ++ rest = labelFile (old.withUpdatedLayer layer) ∧
          r = .set (some (old.withUpdatedLayer layer))) ∨
        ∃ n, c.op = .create n ∧ d.phase i = .made x ∧ d.data x = [] ∧
          s.data x ++ rest = labelFile .newEmpty ∧ r = .created)
  | .unlocking x r => c.answer = none ∧ d.phase i = .done ∧
      (∃ t, c'.answer = some (r, t) ∧ t < d.now) ∧ x < s.next ∧
      (i ∈ s.shared x ∨ s.exclusive x = some i)
  | .returning r => c.answer = none ∧ d.phase i = .done ∧
      ∃ t, c'.answer = some (r, t) ∧ t < d.now
  | .done => d.phase i = .done ∧
      ∃ r t t', c.answer = some (r, t) ∧ c'.answer = some (r, t') ∧ t' < d.now ∧ φ t' ≤ t
  | .dropped => c.answer = none ∧ ∀ x, d.phase i ≠ .made x

/-- The detailed system is in a state like the simple one, which has made its steps at the moments
`φ`. -/
structure Sim (s : LockedLabels L) (d : DirLabels L) (φ : Nat → Nat) : Prop where
  run : d.Run
  dir : d.dir = s.dir
  next : d.next = s.next
  time : Time φ d.now s.now
  below : ∀ n x, s.dir n = some x → x < s.next
  owner : ∀ j k x, d.phase j = .made x → d.phase k = .made x → j = k
  lock : ∀ x k, s.exclusive x = some k → s.shared x = []
  data : ∀ x, (∀ k pos rest r, s.phase k ≠ .writing x pos rest r) → d.data x = s.data x
  fresh : ∀ i, s.calls i = none → d.calls i = none ∧ s.phase i = .begun ∧ d.phase i = .begun
  call : ∀ i c, s.calls i = some c → ∃ c', d.calls i = some c' ∧ c'.op = c.op ∧
    φ c'.start = c.start ∧ c'.start < d.now ∧ At s d φ i c c' (s.phase i)

theorem Sim.init : Sim ({} : LockedLabels L) {} id where
  run := .start
  dir := rfl
  next := rfl
  time := ⟨fun _ _ h _ => h, fun _ h => absurd h (Nat.not_lt_zero _)⟩
  below := by intro n x h; cases h
  owner := by intro j k x h; cases h
  lock := by intro x k h; cases h
  data := by intro x _; rfl
  fresh := by intro i _; exact ⟨rfl, rfl, rfl⟩
  call := by intro i c h; cases h

/-- The file whose contents matter to a call in this phase. -/
def Phase.uses (x : Nat) : Phase → Prop
  | .made y | .reading y _ | .truncating y | .writing y _ _ _ => y = x
  | _ => False

/-- A call is not touched by the step of another. -/
theorem At.frame {s s' : LockedLabels L} {d d' : DirLabels L} {φ φ' : Nat → Nat} {j : Nat}
    {c c' : LabelCall L LayerName} {p : Phase} (h : At s d φ j c c' p)
    (hnext : s.next ≤ s'.next) (hnow : d.now ≤ d'.now) (hφ : ∀ a, a < d.now → φ' a = φ a)
    (hphase : d'.phase j = d.phase j)
    (hex : ∀ x, s.exclusive x = some j → s'.exclusive x = some j)
    (hsh : ∀ x, j ∈ s.shared x → j ∈ s'.shared x)
    (hdata : ∀ x, x < s.next → p.uses x → s'.data x = s.data x ∧ d'.data x = d.data x) :
    At s' d' φ' j c c' p := by
  cases p with
  | begun => exact ⟨h.1, h.2.1, hphase.trans h.2.2⟩
  | checked => exact ⟨h.1, h.2.1, hphase.trans h.2.2.1, h.2.2.2⟩
  | waiting x =>
    obtain ⟨h1, h2, h3, h4, h5⟩ := h
    exact ⟨h1, h2, hphase.trans h3, Nat.lt_of_lt_of_le h4 hnext, h5⟩
  | made x =>
    obtain ⟨h1, h2, h3, h4, h5, h6, h7⟩ := h
    obtain ⟨e1, e2⟩ := hdata x h4 rfl
    exact ⟨h1, h2, hphase.trans h3, Nat.lt_of_lt_of_le h4 hnext, h5, e1.trans h6, e2.trans h7⟩
  | reading x got =>
    obtain ⟨h1, h2, h3, h4, h5, h6⟩ := h
    obtain ⟨e1, e2⟩ := hdata x h4 rfl
    refine ⟨h1, h2, hphase.trans h3, Nat.lt_of_lt_of_le h4 hnext, by rw [e1]; exact h5, ?_⟩
    rcases h6 with ⟨h6, h7⟩ | ⟨h6, h7⟩
    · exact Or.inl ⟨h6, hsh _ h7⟩
    · exact Or.inr ⟨h6, hex _ h7⟩
  | truncating x =>
    obtain ⟨h1, h2, h3, h4, h5, h6⟩ := h
    obtain ⟨e1, e2⟩ := hdata x h4 rfl
    exact ⟨h1, h2, hphase.trans h3, Nat.lt_of_lt_of_le h4 hnext, hex _ h5, by rw [e1]; exact h6⟩
  | writing x pos rest r =>
    obtain ⟨h1, h2, h4, h5, h6, h7⟩ := h
    obtain ⟨e1, e2⟩ := hdata x h4 rfl
    refine ⟨h1, h2, Nat.lt_of_lt_of_le h4 hnext, hex _ h5, by rw [e1]; exact h6, ?_⟩
    rw [hphase, e1, e2]
    exact h7
  | unlocking x r =>
    obtain ⟨h1, h2, ⟨t, h3, h4⟩, h5, h6⟩ := h
    exact ⟨h1, hphase.trans h2, ⟨t, h3, Nat.lt_of_lt_of_le h4 hnow⟩, Nat.lt_of_lt_of_le h5 hnext,
      h6.imp (hsh _) (hex _)⟩
  | returning r =>
    obtain ⟨h1, h2, t, h3, h4⟩ := h
    exact ⟨h1, hphase.trans h2, t, h3, Nat.lt_of_lt_of_le h4 hnow⟩
  | done =>
    obtain ⟨h1, r, t, t', h2, h3, h4, h5⟩ := h
    exact ⟨hphase.trans h1, r, t, t', h2, h3, Nat.lt_of_lt_of_le h4 hnow, by rw [hφ _ h4]; exact h5⟩
  | dropped => exact ⟨h.1, by rw [hphase]; exact h.2⟩

/-- The other calls after a step of call `i`. -/
theorem Sim.others {s s' : LockedLabels L} {d d' : DirLabels L} {φ φ' : Nat → Nat}
    (h : Sim s d φ) (i : Nat) (hnext : s.next ≤ s'.next) (hnow : d.now ≤ d'.now)
    (hφ : ∀ a, a < d.now → φ' a = φ a)
    (hcalls : ∀ j, j ≠ i → s'.calls j = s.calls j ∧ d'.calls j = d.calls j)
    (hphase : ∀ j, j ≠ i → s'.phase j = s.phase j ∧ d'.phase j = d.phase j)
    (hex : ∀ j x, j ≠ i → s.exclusive x = some j → s'.exclusive x = some j)
    (hsh : ∀ j x, j ≠ i → j ∈ s.shared x → j ∈ s'.shared x)
    (hdata : ∀ j x, j ≠ i → x < s.next → (s.phase j).uses x → s'.data x = s.data x ∧
      d'.data x = d.data x)
    (hown : ∃ c c', s'.calls i = some c ∧ d'.calls i = some c' ∧ c'.op = c.op ∧
      φ' c'.start = c.start ∧ c'.start < d'.now ∧ At s' d' φ' i c c' (s'.phase i)) :
    (∀ j, s'.calls j = none → d'.calls j = none ∧ s'.phase j = .begun ∧ d'.phase j = .begun) ∧
    ∀ j c, s'.calls j = some c → ∃ c', d'.calls j = some c' ∧ c'.op = c.op ∧
      φ' c'.start = c.start ∧ c'.start < d'.now ∧ At s' d' φ' j c c' (s'.phase j) := by
  obtain ⟨c, c', o1, o2, o3⟩ := hown
  constructor
  · intro j hj
    by_cases hji : j = i
    · subst hji
      rw [o1] at hj
      cases hj
    · rw [(hcalls j hji).1] at hj
      rw [(hcalls j hji).2, (hphase j hji).1, (hphase j hji).2]
      exact h.fresh j hj
  · intro j x hj
    by_cases hji : j = i
    · subst hji
      rw [o1] at hj
      cases hj
      exact ⟨c', o2, o3⟩
    · rw [(hcalls j hji).1] at hj
      obtain ⟨y, a1, a2, a3, a4, a5⟩ := h.call j x hj
      refine ⟨y, by rw [(hcalls j hji).2, a1], a2, by rw [hφ _ a4, a3],
        Nat.lt_of_lt_of_le a4 hnow, ?_⟩
      rw [(hphase j hji).1]
      exact a5.frame hnext hnow hφ (hphase j hji).2 (fun x => hex j x hji) (fun x => hsh j x hji)
        (fun x hx hu => hdata j x hji hx hu)

/-- A step of call `i` that the simple system does not make. -/
theorem Sim.alone {s s' : LockedLabels L} {d : DirLabels L} {φ : Nat → Nat} (h : Sim s d φ)
    {i : Nat} {c : LabelCall L LayerName} {q : Phase} (hc : s.calls i = some c)
    (e1 : s'.dir = s.dir) (e2 : s'.next = s.next) (e3 : s'.calls = s.calls)
    (e4 : s'.now = s.now + 1) (hp : s'.phase = upd s.phase i q)
    (hex : ∀ j x, j ≠ i → s.exclusive x = some j → s'.exclusive x = some j)
    (hsh : ∀ j x, j ≠ i → j ∈ s.shared x → j ∈ s'.shared x)
    (hlock : ∀ x k, s'.exclusive x = some k → s'.shared x = [])
    (hdata : ∀ j x, j ≠ i → x < s.next → (s.phase j).uses x → s'.data x = s.data x)
    (hd : ∀ x, (∀ k pos rest r, s'.phase k ≠ .writing x pos rest r) → d.data x = s'.data x)
    (hown : ∀ c', c'.op = c.op → At s d φ i c c' (s.phase i) → At s' d φ i c c' q) :
    Sim s' d φ := by
  obtain ⟨c', a1, a2, a3, a4, a5⟩ := h.call i c hc
  obtain ⟨g1, g2⟩ := h.others (s' := s') (d' := d) (φ' := φ) i (Nat.le_of_eq e2.symm) (Nat.le_refl _)
    (fun _ _ => rfl) (fun j _ => ⟨by rw [e3], rfl⟩)
    (fun j hj => ⟨by rw [hp, upd_other _ _ hj], rfl⟩) hex hsh
    (fun j x hj hx hu => ⟨hdata j x hj hx hu, rfl⟩)
    ⟨c, c', by rw [e3, hc], a1, a2, a3, a4, by rw [hp, upd_same]; exact hown c' a2 a5⟩
  exact
    { run := h.run
      dir := h.dir.trans e1.symm
      next := h.next.trans e2.symm
      time := by rw [e4]; exact h.time.one
      below := by rw [e1, e2]; exact h.below
      owner := h.owner
      lock := hlock
      data := hd
      fresh := g1
      call := g2 }

/-- A step of call `i` that both systems make, the simple one to `d'`. -/
theorem Sim.both {s s' : LockedLabels L} {d d' : DirLabels L} {φ : Nat → Nat} (h : Sim s d φ)
    {i : Nat} (hrun : d'.Run) (e1 : d'.dir = s'.dir) (e2 : d'.next = s'.next)
    (e3 : s'.now = s.now + 1) (e4 : d'.now = d.now + 1) (hnext : s.next ≤ s'.next)
    (hbelow : ∀ n x, s'.dir n = some x → x < s'.next)
    (howner : ∀ j k x, d'.phase j = .made x → d'.phase k = .made x → j = k)
    (hcalls : ∀ j, j ≠ i → s'.calls j = s.calls j ∧ d'.calls j = d.calls j)
    (hphase : ∀ j, j ≠ i → s'.phase j = s.phase j ∧ d'.phase j = d.phase j)
    (hex : s'.exclusive = s.exclusive) (hsh : s'.shared = s.shared)
    (hdata : ∀ j x, j ≠ i → x < s.next → (s.phase j).uses x → s'.data x = s.data x ∧
      d'.data x = d.data x)
    (hd : ∀ x, (∀ k pos rest r, s'.phase k ≠ .writing x pos rest r) → d'.data x = s'.data x)
    (hown : ∃ c c', s'.calls i = some c ∧ d'.calls i = some c' ∧ c'.op = c.op ∧
      upd φ d.now s.now c'.start = c.start ∧ c'.start < d'.now ∧
      At s' d' (upd φ d.now s.now) i c c' (s'.phase i)) :
    Sim s' d' (upd φ d.now s.now) := by
  obtain ⟨g1, g2⟩ := h.others (s' := s') (d' := d') (φ' := upd φ d.now s.now) i hnext
    (by rw [e4]; exact Nat.le_succ _) (fun a ha => upd_other _ _ (Nat.ne_of_lt ha)) hcalls hphase
    (fun j x _ hx => by rw [hex]; exact hx) (fun j x _ hx => by rw [hsh]; exact hx) hdata hown
  exact
    { run := hrun
      dir := e1
      next := e2
      time := by rw [e3, e4]; exact h.time.both
      below := hbelow
      owner := howner
      lock := by rw [hex, hsh]; exact h.lock
      data := hd
      fresh := g1
      call := g2 }

/-- What a call that was answered before the step keeps. -/
theorem Sim.made_lt {s : LockedLabels L} {d : DirLabels L} {φ : Nat → Nat} (h : Sim s d φ)
    {j x : Nat} (hj : d.phase j = .made x) : x < s.next := by
  cases hc : s.calls j with
  | none =>
    rw [(h.fresh j hc).2.2] at hj
    cases hj
  | some c =>
    obtain ⟨c', _, _, _, _, a5⟩ := h.call j c hc
    cases hp : s.phase j with
    | begun => rw [hp] at a5; rw [a5.2.2] at hj; cases hj
    | checked => rw [hp] at a5; rw [a5.2.2.1] at hj; cases hj
    | waiting y => rw [hp] at a5; rw [a5.2.2.1] at hj; cases hj
    | made y =>
      rw [hp] at a5
      rw [a5.2.2.1] at hj
      cases hj
      exact a5.2.2.2.1
    | reading y g => rw [hp] at a5; rw [a5.2.2.1] at hj; cases hj
    | truncating y => rw [hp] at a5; rw [a5.2.2.1] at hj; cases hj
    | writing y pos rest r =>
      rw [hp] at a5
      obtain ⟨_, _, h3, _, _, h6 | h6⟩ := a5
      · obtain ⟨_, _, _, _, h7, _⟩ := h6
        rw [h7] at hj
        cases hj
      · obtain ⟨_, _, h7, _⟩ := h6
        rw [h7] at hj
        cases hj
        exact h3
    | unlocking y r => rw [hp] at a5; rw [a5.2.1] at hj; cases hj
    | returning r => rw [hp] at a5; rw [a5.2.1] at hj; cases hj
    | done => rw [hp] at a5; rw [a5.1] at hj; cases hj
    | dropped => rw [hp] at a5; exact absurd hj (a5.2 x)

/-- While a call has the exclusive lock of a file, no other call uses it, except calls that have
made it and wait for the lock. -/
theorem Sim.exclusive_uses {s : LockedLabels L} {d : DirLabels L} {φ : Nat → Nat} (h : Sim s d φ)
    {i j x : Nat} (hx : s.exclusive x = some i) (hj : j ≠ i) (hu : (s.phase j).uses x) :
    s.phase j = .made x := by
  cases hc : s.calls j with
  | none =>
    rw [(h.fresh j hc).2.1] at hu
    exact hu.elim
  | some c =>
    obtain ⟨c', _, _, _, _, a5⟩ := h.call j c hc
    cases hp : s.phase j with
    | made y => rw [hp] at hu; cases hu; rfl
    | reading y g =>
      rw [hp] at a5 hu
      cases hu
      obtain ⟨_, _, _, _, _, h6 | h6⟩ := a5
      · rw [h.lock _ _ hx] at h6
        cases h6.2
      · rw [hx] at h6
        exact absurd (Option.some.inj h6.2).symm hj
    | truncating y =>
      rw [hp] at a5 hu
      cases hu
      obtain ⟨_, _, _, _, h6, _⟩ := a5
      rw [hx] at h6
      exact absurd (Option.some.inj h6).symm hj
    | writing y pos rest r =>
      rw [hp] at a5 hu
      cases hu
      obtain ⟨_, _, _, h6, _⟩ := a5
      rw [hx] at h6
      exact absurd (Option.some.inj h6).symm hj
    | begun => rw [hp] at hu; exact hu.elim
    | checked => rw [hp] at hu; exact hu.elim
    | waiting y => rw [hp] at hu; exact hu.elim
    | unlocking y r => rw [hp] at hu; exact hu.elim
    | returning r => rw [hp] at hu; exact hu.elim
    | done => rw [hp] at hu; exact hu.elim
    | dropped => rw [hp] at hu; exact hu.elim

/-- Nobody writes a file that a call has locked and does not write itself. -/
theorem Sim.not_writing {s : LockedLabels L} {d : DirLabels L} {φ : Nat → Nat} (h : Sim s d φ)
    {i x : Nat} (hx : s.exclusive x = some i ∨ i ∈ s.shared x)
    (hi : ∀ pos rest r, s.phase i ≠ .writing x pos rest r) :
    ∀ k pos rest r, s.phase k ≠ .writing x pos rest r := by
  intro k pos rest r hk
  cases hc : s.calls k with
  | none =>
    rw [(h.fresh k hc).2.1] at hk
    cases hk
  | some c =>
    obtain ⟨c', _, _, _, _, a5⟩ := h.call k c hc
    rw [hk] at a5
    obtain ⟨_, _, _, h6, _⟩ := a5
    rcases hx with hx | hx
    · rw [hx] at h6
      cases h6
      exact hi pos rest r hk
    · rw [h.lock _ _ h6] at hx
      cases hx

end LockedLabels

end Verif
