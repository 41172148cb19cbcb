import Verif.Lemmas.LockedSteps
import Verif.Lemmas.LockedInv

/-!
Calls on the directory store do not block each other for ever.
-/

namespace Verif

open Spec

variable {L : Type} [DecidableEq L]

namespace LockedLabels

set_option linter.unusedSectionVars false

open DirLabels (upd readResult setResult)

variable {s s' : LockedLabels L} {i : Nat}

/-! ### Who has a lock -/

/-- A call in this phase has the lock of file `x`. -/
def Phase.holds (x : Nat) : Phase → Prop
  | .reading y _ | .truncating y | .writing y _ _ _ | .unlocking y _ => y = x
  | _ => False

/-- Locks are held by calls that use them. -/
def Held (s : LockedLabels L) : Prop :=
  ∀ x k, (s.exclusive x = some k ∨ k ∈ s.shared x) → (s.phase k).holds x

theorem Held.same {q : Phase} (h : Held s) (e1 : s'.exclusive = s.exclusive)
    (e2 : s'.shared = s.shared) (e3 : s'.phase = upd s.phase i q)
    (hq : ∀ x, (s.phase i).holds x → q.holds x) : Held s' := by
  intro x k hk
  rw [e1, e2] at hk
  have := h x k hk
  rw [e3]
  by_cases e : k = i
  · subst e
    rw [upd_same]
    exact hq x this
  · rw [upd_other _ _ e]
    exact this

theorem Held.shared (h : Held s) {x : Nat} {q : Phase} (hp : ∀ y, ¬ (s.phase i).holds y)
    (hq : q.holds x) : Held ((s.lockShared i x).goto i q) := by
  intro y k hk
  show Phase.holds y (upd s.phase i q k)
  have hk' : s.exclusive y = some k ∨ k ∈ upd s.shared x (i :: s.shared x) y := hk
  have old : (s.exclusive y = some k ∨ k ∈ s.shared y) → Phase.holds y (upd s.phase i q k) := by
    intro ho
    have := h y k ho
    by_cases e : k = i
    · subst e
      exact absurd this (hp y)
    · rw [upd_other _ _ e]
      exact this
  rcases hk' with hk' | hk'
  · exact old (Or.inl hk')
  · by_cases hy : y = x
    · subst hy
      rw [upd_same] at hk'
      rcases List.mem_cons.1 hk' with e | hk'
      · rw [e, upd_same]
        exact hq
      · exact old (Or.inr hk')
    · rw [upd_other _ _ hy] at hk'
      exact old (Or.inr hk')

theorem Held.exclusive (h : Held s) {x : Nat} {q : Phase} (hp : ∀ y, ¬ (s.phase i).holds y)
    (hq : q.holds x) : Held ((s.lockExclusive i x).goto i q) := by
  intro y k hk
  show Phase.holds y (upd s.phase i q k)
  have hk' : upd s.exclusive x (some i) y = some k ∨ k ∈ s.shared y := hk
  have old : (s.exclusive y = some k ∨ k ∈ s.shared y) → Phase.holds y (upd s.phase i q k) := by
    intro ho
    have := h y k ho
    by_cases e : k = i
    · subst e
      exact absurd this (hp y)
    · rw [upd_other _ _ e]
      exact this
  rcases hk' with hk' | hk'
  · by_cases hy : y = x
    · subst hy
      rw [upd_same] at hk'
      cases hk'
      rw [upd_same]
      exact hq
    · rw [upd_other _ _ hy] at hk'
      exact old (Or.inl hk')
  · exact old (Or.inr hk')

theorem Held.go (h : Held s) (hg : Go true i s s') : Held s' := by
  cases hg with
  | openFile _ h2 =>
    exact h.same (q := .waiting _) rfl rfl rfl (by rw [h2]; exact fun _ hx => hx.elim)
  | getMissing _ h2 => exact h.same (q := .done) rfl rfl rfl (by rw [h2]; exact fun _ hx => hx.elim)
  | setMissing _ h2 => exact h.same (q := .done) rfl rfl rfl (by rw [h2]; exact fun _ hx => hx.elim)
  | lockToRead _ _ h2 => exact h.shared (by rw [h2]; exact fun _ hx => hx.elim) rfl
  | doNotLock h0 => cases h0
  | lockToWrite _ h2 => exact h.exclusive (by rw [h2]; exact fun _ hx => hx.elim) rfl
  | readSome h2 _ =>
    exact h.same (q := .reading _ _) rfl rfl rfl (by rw [h2]; exact fun _ hx => hx)
  | readEnd _ h2 =>
    exact h.same (q := .unlocking _ _) rfl rfl rfl (by rw [h2]; exact fun _ hx => hx)
  | same _ h2 => exact h.same (q := .truncating _) rfl rfl rfl (by rw [h2]; exact fun _ hx => hx)
  | different _ h2 =>
    exact h.same (q := .unlocking _ _) rfl rfl rfl (by rw [h2]; exact fun _ hx => hx)
  | broken _ h2 =>
    exact h.same (q := .unlocking _ _) rfl rfl rfl (by rw [h2]; exact fun _ hx => hx)
  | truncate _ h2 =>
    exact h.same (q := .writing _ _ _ _) rfl rfl rfl (by rw [h2]; exact fun _ hx => hx)
  | writeSome h2 _ =>
    exact h.same (q := .writing _ _ _ _) rfl rfl rfl (by rw [h2]; exact fun _ hx => hx)
  | writeEnd h2 =>
    exact h.same (q := .unlocking _ _) rfl rfl rfl (by rw [h2]; exact fun _ hx => hx)
  | finish _ h2 => exact h.same (q := .done) rfl rfl rfl (by rw [h2]; exact fun _ hx => hx.elim)
  | check _ h2 => exact h.same (q := .checked) rfl rfl rfl (by rw [h2]; exact fun _ hx => hx.elim)
  | createExists _ h2 =>
    exact h.same (q := .done) rfl rfl rfl
      (by rcases h2 with h2 | h2 <;> (rw [h2]; exact fun _ hx => hx.elim))
  | make _ h2 => exact h.same (q := .made _) rfl rfl rfl (by rw [h2]; exact fun _ hx => hx.elim)
  | lockMade h2 => exact h.exclusive (by rw [h2]; exact fun _ hx => hx.elim) rfl
  | unlink _ h2 => exact h.same (q := .done) rfl rfl rfl (by rw [h2]; exact fun _ hx => hx.elim)
  | @unlock x r h2 =>
    intro y k hk
    show Phase.holds y (upd s.phase i (.returning r) k)
    have hk' : upd s.exclusive x (if s.exclusive x = some i then none else s.exclusive x) y = some k ∨
      k ∈ upd s.shared x ((s.shared x).filter (fun k => k ≠ i)) y := hk
    have old : k ≠ i → (s.exclusive y = some k ∨ k ∈ s.shared y) →
        Phase.holds y (upd s.phase i (.returning r) k) := by
      intro e ho
      rw [upd_other _ _ e]
      exact h y k ho
    by_cases hy : y = x
    · subst hy
      rw [upd_same, upd_same] at hk'
      rcases hk' with hk' | hk'
      · split at hk'
        · cases hk'
        · rename_i hne
          exact old (by rintro rfl; exact hne hk') (Or.inl hk')
      · obtain ⟨k1, k2⟩ := List.mem_filter.1 hk'
        exact old (by simpa using k2) (Or.inr k1)
    · rw [upd_other _ _ hy, upd_other _ _ hy] at hk'
      have hki : k ≠ i := by
        rintro rfl
        have := h y k hk'
        rw [h2] at this
        exact hy this.symm
      exact old hki hk'

/-- A call that is dropped gives its locks back. -/
theorem Held.drop (h : Held s) : Held (s.drop i) := by
  intro x k hk
  show Phase.holds x (upd s.phase i .dropped k)
  have hk' : (if s.exclusive x = some i then none else s.exclusive x) = some k ∨
    k ∈ (s.shared x).filter (fun k => k ≠ i) := hk
  have hne : k ≠ i := by
    rintro rfl
    rcases hk' with hk' | hk'
    · split at hk'
      · cases hk'
      · rename_i hne
        exact hne hk'
    · simpa using (List.mem_filter.1 hk').2
  rw [upd_other _ _ hne]
  refine h x k (hk'.imp (fun h => ?_) (fun h => (List.mem_filter.1 h).1))
  split at h
  · cases h
  · exact h

theorem Run.held {drops : Phase → Bool} (h : Run true drops s) : Held s := by
  induction h with
  | start =>
    intro x k hk
    rcases hk with hk | hk <;> cases hk
  | @step s s' hr hs ih =>
    cases hs with
    | @start i op h1 h2 =>
      exact ih.same (i := i) (q := .begun) rfl rfl rfl
        (by rw [hr.fit.fresh _ h1]; exact fun _ hx => hx.elim)
    | go hg => exact ih.go hg
    | drop _ _ _ => exact ih.drop
    | dropDelete _ h2 _ =>
      exact ih.same (q := .dropped) rfl rfl rfl (by rw [h2]; exact fun _ hx => hx.elim)

/-! ### No deadlock -/

/-- A call that has a lock can go on. -/
theorem Fit.holder (h : Fit s) {x : Nat} (hp : (s.phase i).holds x) : ∃ s', Go true i s s' := by
  have hne : s.phase i ≠ .begun := by
    intro e
    rw [e] at hp
    exact hp
  obtain ⟨c, hc⟩ := h.started hne
  have a5 := h.fits i c hc
  cases hs : s.phase i with
  | reading y got =>
    rw [hs] at a5
    obtain ⟨_, h6⟩ := a5
    by_cases hl : got.length < (s.data y).length
    · exact ⟨_, .readSome (k := 0) hs hl⟩
    · have hl' : (s.data y).length ≤ got.length := by omega
      rcases h6 with ⟨⟨n, ho⟩, _⟩ | ⟨⟨n, old, layer, ho⟩, _⟩
      · exact ⟨_, .readEnd hc hs ho hl'⟩
      · cases hr : readLabelFile got with
        | ok l =>
          by_cases hlo : l = old
          · subst hlo
            exact ⟨_, .same hc hs ho hl' hr⟩
          · exact ⟨_, .different hc hs ho hl' hr hlo⟩
        | err => exact ⟨_, .broken hc hs ho hl' (by rw [hr]; intro _ e; cases e)⟩
        | panic => exact ⟨_, .broken hc hs ho hl' (by rw [hr]; intro _ e; cases e)⟩
  | truncating y =>
    rw [hs] at a5
    obtain ⟨_, ⟨n, old, layer, ho⟩, _⟩ := a5
    exact ⟨_, .truncate hc hs ho⟩
  | writing y pos rest r =>
    by_cases hr : rest = []
    · subst hr
      exact ⟨_, .writeEnd hs⟩
    · exact ⟨_, .writeSome (k := 0) hs hr⟩
  | unlocking y r => exact ⟨_, .unlock hs⟩
  | begun => rw [hs] at hp; exact hp.elim
  | checked => rw [hs] at hp; exact hp.elim
  | waiting y => rw [hs] at hp; exact hp.elim
  | made y => rw [hs] at hp; exact hp.elim
  | returning r => rw [hs] at hp; exact hp.elim
  | done => rw [hs] at hp; exact hp.elim
  | dropped => rw [hs] at hp; exact hp.elim

/-- A file is not locked, or some call that has its lock can go on. -/
theorem Fit.free_or (h : Fit s) (hh : Held s) (x : Nat) :
    (s.exclusive x = none ∧ s.shared x = []) ∨ ∃ j s', Go true j s s' := by
  cases he : s.exclusive x with
  | some k =>
    obtain ⟨s', hg⟩ := h.holder (hh x k (Or.inl he))
    exact Or.inr ⟨k, s', hg⟩
  | none =>
    cases hs : s.shared x with
    | nil => exact Or.inl ⟨rfl, rfl⟩
    | cons k ks =>
      obtain ⟨s', hg⟩ := h.holder (hh x k (Or.inr (by rw [hs]; exact List.mem_cons_self)))
      exact Or.inr ⟨k, s', hg⟩

theorem Run.progress {drops : Phase → Bool} (hr : Run true drops s) {c : LabelCall L LayerName} (hc : s.calls i = some c)
    (ha : c.answer = none) (hn : s.phase i ≠ .dropped) : ∃ j s', Go true j s s' := by
  have h := hr.fit
  have hh := hr.held
  have a5 := h.fits i c hc
  cases hs : s.phase i with
  | begun =>
    cases ho : c.op with
    | create n =>
      cases hd : s.dir n with
      | none => exact ⟨i, _, .check hc hs ho hd⟩
      | some x => exact ⟨i, _, .createExists hc (Or.inl hs) ho hd⟩
    | get n =>
      cases hd : s.dir n with
      | none => exact ⟨i, _, .getMissing hc hs ho hd⟩
      | some x => exact ⟨i, _, .openFile hc hs (Or.inl ⟨n, ho⟩) (by rw [ho]; exact hd)⟩
    | set n old layer =>
      cases hd : s.dir n with
      | none => exact ⟨i, _, .setMissing hc hs ho hd⟩
      | some x => exact ⟨i, _, .openFile hc hs (Or.inr ⟨n, old, layer, ho⟩) (by rw [ho]; exact hd)⟩
    | delete n => exact ⟨i, _, .unlink hc hs ho⟩
  | checked =>
    rw [hs] at a5
    obtain ⟨_, n, ho⟩ := a5
    cases hd : s.dir n with
    | none => exact ⟨i, _, .make hc hs ho hd⟩
    | some x => exact ⟨i, _, .createExists hc (Or.inr hs) ho hd⟩
  | waiting x =>
    rw [hs] at a5
    obtain ⟨_, ho⟩ := a5
    rcases h.free_or hh x with ⟨f1, f2⟩ | hg
    · rcases ho with ⟨n, ho⟩ | ⟨n, old, layer, ho⟩
      · exact ⟨i, _, .lockToRead rfl hc hs ho f1⟩
      · exact ⟨i, _, .lockToWrite hc hs ho f1 f2⟩
    · exact hg
  | made x =>
    rcases h.free_or hh x with ⟨f1, f2⟩ | hg
    · exact ⟨i, _, .lockMade hs f1 f2⟩
    · exact hg
  | returning r => exact ⟨i, _, .finish hc hs⟩
  | done =>
    rw [hs] at a5
    exact absurd ha a5
  | dropped => exact absurd hs hn
  | reading x got =>
    obtain ⟨s', hg⟩ := h.holder (i := i) (x := x) (by rw [hs]; rfl)
    exact ⟨i, s', hg⟩
  | truncating x =>
    obtain ⟨s', hg⟩ := h.holder (i := i) (x := x) (by rw [hs]; rfl)
    exact ⟨i, s', hg⟩
  | writing x pos rest r =>
    obtain ⟨s', hg⟩ := h.holder (i := i) (x := x) (by rw [hs]; rfl)
    exact ⟨i, s', hg⟩
  | unlocking x r =>
    obtain ⟨s', hg⟩ := h.holder (i := i) (x := x) (by rw [hs]; rfl)
    exact ⟨i, s', hg⟩

/-! ### No endless execution -/

/-- The sum over the numbers below `n`. -/
def total (f : Nat → Nat) : Nat → Nat
  | 0 => 0
  | n + 1 => total f n + f n

theorem total_congr {f g : Nat → Nat} {n : Nat} (h : ∀ j, j < n → f j = g j) :
    total f n = total g n := by
  induction n with
  | zero => rfl
  | succ n ih => rw [total, total, ih (fun j hj => h j (by omega)), h n (by omega)]

theorem total_lt {f g : Nat → Nat} {n i : Nat} (hi : i < n) (h : ∀ j, j ≠ i → f j = g j)
    (hlt : f i < g i) : total f n < total g n := by
  induction n with
  | zero => omega
  | succ n ih =>
    rw [total, total]
    by_cases e : i = n
    · subst e
      rw [total_congr (n := i) (fun j hj => h j (by omega))]
      omega
    · rw [h n (fun e' => e e'.symm)]
      have := ih (by omega)
      omega

/-- How many phases a call has still before it. -/
def Phase.rank : Phase → Nat
  | .begun => 9
  | .checked => 8
  | .waiting _ => 7
  | .made _ => 7
  | .reading _ _ => 6
  | .truncating _ => 5
  | .writing _ _ _ _ => 4
  | .unlocking _ _ => 3
  | .returning _ => 2
  | .done => 0
  | .dropped => 0

/-- How many bytes a call has still to read or write. -/
def left (data : Nat → Bytes) : Phase → Nat
  | .reading x got => (data x).length - got.length
  | .writing _ _ rest _ => rest.length
  | _ => 0

/-- A step makes a phase pass or leaves less to read or write. -/
theorem Fit.go_less (h : Fit s) (hg : Go true i s s') :
    (∃ c, s.calls i = some c) ∧ (∀ j, j ≠ i → s'.phase j = s.phase j) ∧
    (∀ j, s'.calls j = none ↔ s.calls j = none) ∧
    ((s'.phase i).rank < (s.phase i).rank ∨
      ((s'.phase i).rank = (s.phase i).rank ∧
        left s'.data (s'.phase i) < left s.data (s.phase i) ∧
        ∀ j, j ≠ i → left s'.data (s.phase j) = left s.data (s.phase j))) := by
  have hput : ∀ c c0, s.calls i = some c → ∀ j, putCall s.calls i c0 j = none ↔ s.calls j = none := by
    intro c c0 hc j
    by_cases e : j = i
    · rw [e, putCall_same, hc]
      simp
    · rw [putCall_other _ _ e]
  have one : ∀ (p q : Phase) (t : LockedLabels L), s.phase i = p → t.phase = upd s.phase i q →
      t.calls = s.calls → q.rank < p.rank → (∃ c, s.calls i = some c) →
      (∃ c, s.calls i = some c) ∧ (∀ j, j ≠ i → t.phase j = s.phase j) ∧
      (∀ j, t.calls j = none ↔ s.calls j = none) ∧
      ((t.phase i).rank < (s.phase i).rank ∨
        ((t.phase i).rank = (s.phase i).rank ∧
          left t.data (t.phase i) < left s.data (s.phase i) ∧
          ∀ j, j ≠ i → left t.data (s.phase j) = left s.data (s.phase j))) := by
    intro p q t hp hq hc hlt hs
    refine ⟨hs, fun j hj => by rw [hq, upd_other _ _ hj], fun j => by rw [hc], Or.inl ?_⟩
    rw [hq, upd_same, hp]
    exact hlt
  have ans : ∀ (p : Phase) (c c0 : LabelCall L LayerName) (t : LockedLabels L), s.phase i = p →
      t.phase = upd s.phase i .done → t.calls = putCall s.calls i c0 → 0 < p.rank →
      s.calls i = some c →
      (∃ c, s.calls i = some c) ∧ (∀ j, j ≠ i → t.phase j = s.phase j) ∧
      (∀ j, t.calls j = none ↔ s.calls j = none) ∧
      ((t.phase i).rank < (s.phase i).rank ∨
        ((t.phase i).rank = (s.phase i).rank ∧
          left t.data (t.phase i) < left s.data (s.phase i) ∧
          ∀ j, j ≠ i → left t.data (s.phase j) = left s.data (s.phase j))) := by
    intro p c c0 t hp hq hc hlt hs
    refine ⟨⟨c, hs⟩, fun j hj => by rw [hq, upd_other _ _ hj], fun j => by rw [hc, hput c c0 hs],
      Or.inl ?_⟩
    rw [hq, upd_same, hp]
    exact hlt
  cases hg with
  | openFile h1 h2 => exact one _ (.waiting _) _ h2 rfl rfl (by simp [Phase.rank]) ⟨_, h1⟩
  | getMissing h1 h2 => exact ans _ _ _ _ h2 rfl rfl (by decide) h1
  | setMissing h1 h2 => exact ans _ _ _ _ h2 rfl rfl (by decide) h1
  | lockToRead _ h1 h2 => exact one _ (.reading _ _) _ h2 rfl rfl (by simp [Phase.rank]) ⟨_, h1⟩
  | doNotLock h0 => cases h0
  | lockToWrite h1 h2 => exact one _ (.reading _ _) _ h2 rfl rfl (by simp [Phase.rank]) ⟨_, h1⟩
  | @readSome x k got h2 hl =>
    refine ⟨h.started (by rw [h2]; intro e; cases e), fun j hj => upd_other _ _ hj, fun _ => Iff.rfl,
      Or.inr ?_⟩
    have e : (s.goto i (.reading x (got ++ readAt (s.data x) got.length k))).phase i =
      .reading x (got ++ readAt (s.data x) got.length k) := upd_same _ _ _
    refine ⟨by rw [e, h2]; rfl, ?_, fun _ _ => rfl⟩
    rw [e, h2]
    show (s.data x).length - (got ++ readAt (s.data x) got.length k).length <
      (s.data x).length - got.length
    rw [List.length_append, readAt, List.length_take, List.length_drop]
    omega
  | readEnd h1 h2 => exact one _ (.unlocking _ _) _ h2 rfl rfl (by simp [Phase.rank]) ⟨_, h1⟩
  | same h1 h2 => exact one _ (.truncating _) _ h2 rfl rfl (by simp [Phase.rank]) ⟨_, h1⟩
  | different h1 h2 => exact one _ (.unlocking _ _) _ h2 rfl rfl (by simp [Phase.rank]) ⟨_, h1⟩
  | broken h1 h2 => exact one _ (.unlocking _ _) _ h2 rfl rfl (by simp [Phase.rank]) ⟨_, h1⟩
  | truncate h1 h2 => exact one _ (.writing _ _ _ _) _ h2 rfl rfl (by simp [Phase.rank]) ⟨_, h1⟩
  | @writeSome x pos k rest r h2 hl =>
    refine ⟨h.started (by rw [h2]; intro e; cases e), fun j hj => upd_other _ _ hj, fun _ => Iff.rfl,
      Or.inr ?_⟩
    have e : ((s.putData x (writeAt (s.data x) pos (rest.take (k + 1)))).goto i
      (.writing x (pos + (rest.take (k + 1)).length) (rest.drop (k + 1)) r)).phase i =
      .writing x (pos + (rest.take (k + 1)).length) (rest.drop (k + 1)) r := upd_same _ _ _
    refine ⟨by rw [e, h2]; rfl, ?_, ?_⟩
    · rw [e, h2]
      show (rest.drop (k + 1)).length < rest.length
      have : 0 < rest.length := List.length_pos_iff.2 hl
      rw [List.length_drop]
      omega
    · intro j hj
      show left (upd s.data x _) (s.phase j) = left s.data (s.phase j)
      cases hpj : s.phase j with
      | reading y got =>
        by_cases hy : y = x
        · subst hy
          exact (h.writing_reading h2 hpj hj).elim
        · show (upd s.data x _ y).length - got.length = _
          rw [upd_other _ _ hy]
          rfl
      | begun => rfl
      | checked => rfl
      | waiting _ => rfl
      | made _ => rfl
      | truncating _ => rfl
      | writing _ _ _ _ => rfl
      | unlocking _ _ => rfl
      | returning _ => rfl
      | done => rfl
      | dropped => rfl
  | writeEnd h2 =>
    exact one _ (.unlocking _ _) _ h2 rfl rfl (by simp [Phase.rank])
      (h.started (by rw [h2]; intro e; cases e))
  | unlock h2 =>
    exact one _ (.returning _) _ h2 rfl rfl (by simp [Phase.rank])
      (h.started (by rw [h2]; intro e; cases e))
  | finish h1 h2 => exact ans _ _ _ _ h2 rfl rfl (by simp [Phase.rank]) h1
  | check h1 h2 => exact one _ .checked _ h2 rfl rfl (by decide) ⟨_, h1⟩
  | createExists h1 h2 =>
    rcases h2 with h2 | h2
    · exact ans _ _ _ _ h2 rfl rfl (by decide) h1
    · exact ans _ _ _ _ h2 rfl rfl (by decide) h1
  | make h1 h2 => exact one _ (.made _) _ h2 rfl rfl (by simp [Phase.rank]) ⟨_, h1⟩
  | lockMade h2 =>
    exact one _ (.writing _ _ _ _) _ h2 rfl rfl (by simp [Phase.rank])
      (h.started (by rw [h2]; intro e; cases e))
  | unlink h1 h2 => exact ans _ _ _ _ h2 rfl rfl (by decide) h1

theorem Run.finite {drops : Phase → Bool} (h : Run true drops s) : ∃ n, ∀ j, n ≤ j → s.calls j = none := by
  induction h with
  | start => exact ⟨0, fun _ _ => rfl⟩
  | step hr hs ih =>
    obtain ⟨n, hn⟩ := ih
    cases hs with
    | @start i op h1 h2 =>
      refine ⟨max n (i + 1), fun j hj => ?_⟩
      show putCall _ i _ j = none
      have hji : j ≠ i := by omega
      rw [putCall_other _ _ hji]
      exact hn j (by omega)
    | go hg =>
      exact ⟨n, fun j hj => ((hr.fit.go_less hg).2.2.1 j).2 (hn j hj)⟩
    | drop _ _ _ => exact ⟨n, hn⟩
    | dropDelete _ _ _ => exact ⟨n, hn⟩

/-- All executions in which no call begins come to an end. -/
theorem Run.ends {drops : Phase → Bool} (hr : Run true drops s) : Acc (fun b a : LockedLabels L => ∃ i, Go true i a b) s := by
  obtain ⟨n, hn⟩ := hr.finite
  suffices H : ∀ (a b : Nat) (s : LockedLabels L), Run true drops s → (∀ j, n ≤ j → s.calls j = none) →
      total (fun j => (s.phase j).rank) n = a → total (fun j => left s.data (s.phase j)) n = b →
      Acc (fun b a : LockedLabels L => ∃ i, Go true i a b) s from H _ _ s hr hn rfl rfl
  intro a
  induction a using Nat.strongRecOn with
  | _ a iha =>
    intro b
    induction b using Nat.strongRecOn with
    | _ b ihb =>
      intro s hr hn ha hb
      refine Acc.intro s ?_
      rintro s' ⟨i, hg⟩
      obtain ⟨⟨c, hc⟩, h1, h2, h3⟩ := hr.fit.go_less hg
      have hi : i < n := by
        by_cases e : n ≤ i
        · rw [hn i e] at hc
          cases hc
        · omega
      have hr' : Run true drops s' := hr.step (.go hg)
      have hn' : ∀ j, n ≤ j → s'.calls j = none := fun j hj => (h2 j).2 (hn j hj)
      rcases h3 with h3 | ⟨h3, h4, h5⟩
      · have := total_lt (f := fun j => (s'.phase j).rank) (g := fun j => (s.phase j).rank) hi
          (fun j hj => by simp only [h1 j hj]) h3
        exact iha _ (by omega) _ s' hr' hn' rfl rfl
      · have e1 : total (fun j => (s'.phase j).rank) n = a := by
          rw [← ha]
          refine total_congr (fun j _ => ?_)
          by_cases e : j = i
          · rw [e, h3]
          · rw [h1 j e]
        have := total_lt (f := fun j => left s'.data (s'.phase j))
          (g := fun j => left s.data (s.phase j)) hi
          (fun j hj => by simp only [h1 j hj]; exact h5 j hj) h4
        exact ihb _ (by omega) s' hr' hn' e1 rfl

end LockedLabels

end Verif
