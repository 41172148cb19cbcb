import Verif.Lemmas.LockedSim

/-!
What is known of calls on the directory store also when their futures are dropped at any time.
-/

namespace Verif

open Spec

variable {L : Type} [DecidableEq L]

namespace LockedLabels

set_option linter.unusedSectionVars false

open DirLabels (upd readResult setResult)

variable {s s' : LockedLabels L} {i : Nat}

/-- Call `i` can be in this phase. -/
def Fits (s : LockedLabels L) (i : Nat) (c : LabelCall L LayerName) : Phase → Prop
  | .begun => c.answer = none
  | .checked => c.answer = none ∧ ∃ n, c.op = .create n
  | .waiting _ => c.answer = none ∧ ((∃ n, c.op = .get n) ∨ ∃ n old layer, c.op = .set n old layer)
  | .made _ => c.answer = none ∧ ∃ n, c.op = .create n
  | .reading x _ => c.answer = none ∧ (((∃ n, c.op = .get n) ∧ i ∈ s.shared x) ∨
      ((∃ n old layer, c.op = .set n old layer) ∧ s.exclusive x = some i))
  | .truncating x => c.answer = none ∧ (∃ n old layer, c.op = .set n old layer) ∧
      s.exclusive x = some i
  | .writing x _ _ _ => c.answer = none ∧ s.exclusive x = some i
  | .unlocking _ _ => c.answer = none
  | .returning _ => c.answer = none
  | .done => c.answer ≠ none
  | .dropped => c.answer = none

/-- Calls have locks when they use files. -/
structure Fit (s : LockedLabels L) : Prop where
  fits : ∀ i c, s.calls i = some c → Fits s i c (s.phase i)
  fresh : ∀ i, s.calls i = none → s.phase i = .begun
  lock : ∀ x k, s.exclusive x = some k → s.shared x = []

theorem Fits.frame {c : LabelCall L LayerName} {p : Phase} (h : Fits s i c p)
    (hex : ∀ x, s.exclusive x = some i → s'.exclusive x = some i)
    (hsh : ∀ x, i ∈ s.shared x → i ∈ s'.shared x) : Fits s' i c p := by
  cases p with
  | reading x got =>
    refine ⟨h.1, ?_⟩
    rcases h.2 with ⟨h1, h2⟩ | ⟨h1, h2⟩
    · exact Or.inl ⟨h1, hsh _ h2⟩
    · exact Or.inr ⟨h1, hex _ h2⟩
  | truncating x => exact ⟨h.1, h.2.1, hex _ h.2.2⟩
  | writing x pos rest r => exact ⟨h.1, hex _ h.2⟩
  | begun => exact h
  | checked => exact h
  | waiting x => exact h
  | made x => exact h
  | unlocking x r => exact h
  | returning r => exact h
  | done => exact h
  | dropped => exact h

theorem Fit.started (h : Fit s) (hp : s.phase i ≠ .begun) : ∃ c, s.calls i = some c := by
  cases hc : s.calls i with
  | none => exact absurd (h.fresh i hc) hp
  | some c => exact ⟨c, rfl⟩

/-- After a step of call `i`. -/
theorem Fit.next (h : Fit s) {q : Phase} {c c0 : LabelCall L LayerName} (hc : s.calls i = some c)
    (hcalls : s'.calls = s.calls ∨ s'.calls = putCall s.calls i c0)
    (hp : s'.phase = upd s.phase i q)
    (hex : ∀ j x, j ≠ i → s.exclusive x = some j → s'.exclusive x = some j)
    (hsh : ∀ j x, j ≠ i → j ∈ s.shared x → j ∈ s'.shared x)
    (hlock : ∀ x k, s'.exclusive x = some k → s'.shared x = [])
    (hown : ∀ c, s'.calls i = some c → Fits s' i c q) : Fit s' := by
  have hother : ∀ j, j ≠ i → s'.calls j = s.calls j := by
    intro j hj
    rcases hcalls with e | e
    · rw [e]
    · rw [e]
      simp [putCall, hj]
  refine ⟨?_, ?_, hlock⟩
  · intro j cj hj
    rw [hp]
    by_cases e : j = i
    · subst e
      rw [upd_same]
      exact hown cj hj
    · rw [upd_other _ _ e]
      rw [hother j e] at hj
      exact (h.fits j cj hj).frame (fun x => hex j x e) (fun x => hsh j x e)
  · intro j hj
    by_cases e : j = i
    · subst e
      rcases hcalls with e' | e'
      · rw [e', hc] at hj
        cases hj
      · rw [e'] at hj
        simp [putCall] at hj
    · rw [hp, upd_other _ _ e]
      exact h.fresh j (by rw [← hother j e]; exact hj)

/-- After a step of call `i` that changes no locks. -/
theorem Fit.goto (h : Fit s) {q : Phase} {c : LabelCall L LayerName} (hc : s.calls i = some c)
    (e1 : s'.calls = s.calls) (e2 : s'.exclusive = s.exclusive) (e3 : s'.shared = s.shared)
    (hp : s'.phase = upd s.phase i q) (hown : Fits s i c (s.phase i) → Fits s i c q) : Fit s' := by
  refine h.next (c0 := c) hc (Or.inl e1) hp (fun j x _ hx => by rw [e2]; exact hx)
    (fun j x _ hx => by rw [e3]; exact hx) (by rw [e2, e3]; exact h.lock) ?_
  intro c' hc'
  rw [e1, hc] at hc'
  cases hc'
  exact (hown (h.fits i c hc)).frame (fun x hx => by rw [e2]; exact hx)
    (fun x hx => by rw [e3]; exact hx)

theorem Fit.answer (h : Fit s) {c : LabelCall L LayerName} {r : LabelRes LayerName}
    (hc : s.calls i = some c)
    (e1 : s'.calls = putCall s.calls i { c with answer := some (r, s.now) })
    (e2 : s'.exclusive = s.exclusive) (e3 : s'.shared = s.shared)
    (hp : s'.phase = upd s.phase i .done) : Fit s' := by
  refine h.next hc (Or.inr e1) hp (fun j x _ hx => by rw [e2]; exact hx)
    (fun j x _ hx => by rw [e3]; exact hx) (by rw [e2, e3]; exact h.lock) ?_
  intro c' hc'
  rw [e1] at hc'
  simp only [putCall, if_true, Option.some.injEq] at hc'
  rw [← hc']
  intro e
  cases e

theorem Fit.shared (h : Fit s) {x : Nat} {q : Phase} {c : LabelCall L LayerName}
    (hc : s.calls i = some c) (hx : s.exclusive x = none)
    (hown : Fits ((s.lockShared i x).goto i q) i c q) : Fit ((s.lockShared i x).goto i q) := by
  refine h.next (c0 := c) hc (Or.inl rfl) rfl (fun j y _ hj => hj) ?_ ?_ ?_
  · intro j y _ hj
    show j ∈ upd s.shared x (i :: s.shared x) y
    by_cases hy : y = x
    · subst hy
      rw [upd_same]
      exact List.mem_cons_of_mem _ hj
    · rw [upd_other _ _ hy]
      exact hj
  · intro y k hk
    show upd s.shared x (i :: s.shared x) y = []
    have hk' : s.exclusive y = some k := hk
    have hy : y ≠ x := by rintro rfl; rw [hx] at hk'; cases hk'
    rw [upd_other _ _ hy]
    exact h.lock y k hk'
  · intro c' hc'
    have hc' : s.calls i = some c' := hc'
    rw [hc] at hc'
    cases hc'
    exact hown

theorem Fit.exclusive (h : Fit s) {x : Nat} {q : Phase} {c : LabelCall L LayerName}
    (hc : s.calls i = some c) (hx : s.exclusive x = none) (hs : s.shared x = [])
    (hown : Fits ((s.lockExclusive i x).goto i q) i c q) :
    Fit ((s.lockExclusive i x).goto i q) := by
  refine h.next (c0 := c) hc (Or.inl rfl) rfl ?_ (fun j y _ hj => hj) ?_ ?_
  · intro j y _ hj
    show upd s.exclusive x (some i) y = some j
    have hy : y ≠ x := by rintro rfl; rw [hx] at hj; cases hj
    rw [upd_other _ _ hy]
    exact hj
  · intro y k hk
    show s.shared y = []
    have hk : upd s.exclusive x (some i) y = some k := hk
    by_cases hy : y = x
    · rw [hy, hs]
    · rw [upd_other _ _ hy] at hk
      exact h.lock y k hk
  · intro c' hc'
    have hc' : s.calls i = some c' := hc'
    rw [hc] at hc'
    cases hc'
    exact hown

theorem Fit.unlock (h : Fit s) {x : Nat} {q : Phase} {c : LabelCall L LayerName}
    (hc : s.calls i = some c) (hown : Fits ((s.unlock i x).goto i q) i c q) :
    Fit ((s.unlock i x).goto i q) := by
  refine h.next (c0 := c) hc (Or.inl rfl) rfl ?_ ?_ ?_ ?_
  · intro j y hj hx
    show upd s.exclusive x _ y = some j
    by_cases hy : y = x
    · subst hy
      rw [upd_same, hx, if_neg]
      intro e
      exact hj (Option.some.inj e)
    · rw [upd_other _ _ hy, hx]
  · intro j y hj hx
    show j ∈ upd s.shared x _ y
    by_cases hy : y = x
    · subst hy
      rw [upd_same]
      exact List.mem_filter.2 ⟨hx, by simpa using hj⟩
    · rw [upd_other _ _ hy]
      exact hx
  · intro y k hk
    show upd s.shared x _ y = []
    have hk' : upd s.exclusive x (if s.exclusive x = some i then none else s.exclusive x) y = some k :=
      hk
    by_cases hy : y = x
    · subst hy
      rw [upd_same] at hk'
      split at hk'
      · cases hk'
      · rw [upd_same, h.lock y k hk']
        rfl
    · rw [upd_other _ _ hy] at hk'
      rw [upd_other _ _ hy]
      exact h.lock y k hk'
  · intro c' hc'
    have hc' : s.calls i = some c' := hc'
    rw [hc] at hc'
    cases hc'
    exact hown

theorem Fit.drop (h : Fit s) {c : LabelCall L LayerName} (hc : s.calls i = some c)
    (ha : c.answer = none) : Fit (s.drop i) := by
  refine h.next (c0 := c) (q := .dropped) hc (Or.inl rfl) rfl ?_ ?_ ?_ ?_
  · intro j y hj hx
    show (if s.exclusive y = some i then none else s.exclusive y) = some j
    rw [hx, if_neg]
    intro e
    exact hj (Option.some.inj e)
  · intro j y hj hx
    exact List.mem_filter.2 ⟨hx, by simpa using hj⟩
  · intro y k hk
    have hk' : (if s.exclusive y = some i then none else s.exclusive y) = some k := hk
    show (s.shared y).filter _ = []
    split at hk'
    · cases hk'
    · rw [h.lock y k hk']
      rfl
  · intro c' hc'
    have hc' : s.calls i = some c' := hc'
    rw [hc] at hc'
    cases hc'
    exact ha

theorem Fit.go (h : Fit s) (hg : Go true i s s') : Fit s' := by
  cases hg with
  | openFile h1 h2 h3 =>
    exact h.goto (q := .waiting _) h1 rfl rfl rfl rfl (by rw [h2]; exact fun ha => ⟨ha, h3⟩)
  | getMissing h1 => exact h.answer h1 rfl rfl rfl rfl
  | setMissing h1 => exact h.answer h1 rfl rfl rfl rfl
  | @lockToRead x c n _ h1 h2 h3 h4 =>
    have := h.fits i _ h1
    rw [h2] at this
    exact h.shared h1 h4 ⟨this.1, Or.inl ⟨⟨n, h3⟩, by
      show i ∈ upd s.shared x (i :: s.shared x) x
      rw [upd_same]
      exact List.mem_cons_self⟩⟩
  | doNotLock h0 => cases h0
  | @lockToWrite x c n old layer h1 h2 h3 h4 h5 =>
    have := h.fits i _ h1
    rw [h2] at this
    exact h.exclusive h1 h4 h5 ⟨this.1, Or.inr ⟨⟨n, old, layer, h3⟩, upd_same _ _ _⟩⟩
  | readSome h2 _ =>
    obtain ⟨c, hc⟩ := h.started (i := i) (by rw [h2]; intro e; cases e)
    exact h.goto (q := .reading _ _) hc rfl rfl rfl rfl (by rw [h2]; exact id)
  | readEnd h1 h2 =>
    exact h.goto (q := .unlocking _ _) h1 rfl rfl rfl rfl (by rw [h2]; exact fun ha => ha.1)
  | same h1 h2 h3 =>
    refine h.goto (q := .truncating _) h1 rfl rfl rfl rfl ?_
    rw [h2]
    rintro ⟨a1, ⟨⟨n, a2⟩, _⟩ | ⟨a2, a3⟩⟩
    · rw [h3] at a2
      cases a2
    · exact ⟨a1, a2, a3⟩
  | different h1 h2 =>
    exact h.goto (q := .unlocking _ _) h1 rfl rfl rfl rfl (by rw [h2]; exact fun ha => ha.1)
  | broken h1 h2 =>
    exact h.goto (q := .unlocking _ _) h1 rfl rfl rfl rfl (by rw [h2]; exact fun ha => ha.1)
  | truncate h1 h2 =>
    exact h.goto (q := .writing _ _ _ _) h1 rfl rfl rfl rfl
      (by rw [h2]; exact fun ha => ⟨ha.1, ha.2.2⟩)
  | writeSome h2 _ =>
    obtain ⟨c, hc⟩ := h.started (i := i) (by rw [h2]; intro e; cases e)
    exact h.goto (q := .writing _ _ _ _) hc rfl rfl rfl rfl (by rw [h2]; exact id)
  | writeEnd h2 =>
    obtain ⟨c, hc⟩ := h.started (i := i) (by rw [h2]; intro e; cases e)
    exact h.goto (q := .unlocking _ _) hc rfl rfl rfl rfl (by rw [h2]; exact fun ha => ha.1)
  | unlock h2 =>
    obtain ⟨c, hc⟩ := h.started (i := i) (by rw [h2]; intro e; cases e)
    have := h.fits i _ hc
    rw [h2] at this
    exact h.unlock hc this
  | finish h1 => exact h.answer h1 rfl rfl rfl rfl
  | check h1 h2 h3 =>
    exact h.goto (q := .checked) h1 rfl rfl rfl rfl (by rw [h2]; exact fun ha => ⟨ha, _, h3⟩)
  | createExists h1 => exact h.answer h1 rfl rfl rfl rfl
  | make h1 h2 =>
    exact h.goto (q := .made _) h1 rfl rfl rfl rfl (by rw [h2]; exact id)
  | lockMade h2 h4 h5 =>
    obtain ⟨c, hc⟩ := h.started (i := i) (by rw [h2]; intro e; cases e)
    have := h.fits i _ hc
    rw [h2] at this
    exact h.exclusive hc h4 h5 ⟨this.1, upd_same _ _ _⟩
  | unlink h1 => exact h.answer h1 rfl rfl rfl rfl

theorem Run.fit {drops : Phase → Bool} (h : Run true drops s) : Fit s := by
  induction h with
  | start => exact ⟨fun i c h => (by cases h), fun _ _ => rfl, fun x k h => (by cases h)⟩
  | @step s s' _ hs ih =>
    cases hs with
    | @start i op h1 h2 =>
      have hother : ∀ j, j ≠ i → putCall s.calls i ⟨op, s.now, none⟩ j = s.calls j := by
        intro j hj
        simp [putCall, hj]
      refine ⟨?_, ?_, ih.lock⟩
      · intro j c hj
        have hj : putCall s.calls i ⟨op, s.now, none⟩ j = some c := hj
        show Fits _ j c (upd s.phase i .begun j)
        by_cases e : j = i
        · subst e
          rw [upd_same]
          simp only [putCall, if_true, Option.some.injEq] at hj
          rw [← hj]
          exact rfl
        · rw [upd_other _ _ e]
          rw [hother j e] at hj
          exact (ih.fits j c hj).frame (fun _ h => h) (fun _ h => h)
      · intro j hj
        have hj : putCall s.calls i ⟨op, s.now, none⟩ j = none := hj
        show upd s.phase i .begun j = _
        by_cases e : j = i
        · rw [e, upd_same]
        · rw [upd_other _ _ e]
          rw [hother j e] at hj
          exact ih.fresh j hj
    | go hg => exact ih.go hg
    | drop h1 h2 h3 => exact ih.drop h1 h2
    | dropDelete h1 h2 h3 =>
      exact ih.goto (q := .dropped) h1 rfl rfl rfl rfl (by rw [h2]; exact id)

/-- While a call writes a file, no other call reads it. -/
theorem Fit.writing_reading (h : Fit s) {j x pos : Nat} {rest got : Bytes} {r : LabelRes LayerName}
    (hi : s.phase i = .writing x pos rest r) (hj : s.phase j = .reading x got) (hne : j ≠ i) :
    False := by
  obtain ⟨c, hc⟩ := h.started (i := i) (by rw [hi]; intro e; cases e)
  obtain ⟨c', hc'⟩ := h.started (i := j) (by rw [hj]; intro e; cases e)
  have h1 := h.fits i c hc
  have h2 := h.fits j c' hc'
  rw [hi] at h1
  rw [hj] at h2
  rcases h2.2 with ⟨_, h3⟩ | ⟨_, h3⟩
  · rw [h.lock _ _ h1.2] at h3
    cases h3
  · rw [h1.2] at h3
    exact hne (Option.some.inj h3).symm

end LockedLabels

end Verif
