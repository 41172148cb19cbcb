import Verif.Lemmas.Linear
import Verif.Lemmas.WorldOk
import Verif.Model.StoreBuilder

/-!
The invariant of a builder that many callers share.
-/

namespace Verif

open SimpleBuilder Spec

set_option linter.unusedSectionVars false

variable {K V : Type} [LinearOrder K] [LinearOrder V]

theorem SimpleBuilder.run_append (b : SimpleBuilder K V) (A B : List (Op K V)) :
    b.run (A ++ B) = (b.run A).bind (fun b => b.run B) := by
  induction A generalizing b with
  | nil => rfl
  | cons op A ih =>
    simp only [List.cons_append, run]
    cases b.step op with
    | none => rfl
    | some b' => exact ih b'

namespace BuilderUse

theorem upd_same {β : Type} (f : Nat → β) (i : Nat) (b : β) : upd f i b i = b := by simp [upd]

theorem upd_other {β : Type} (f : Nat → β) {i k : Nat} (b : β) (h : k ≠ i) :
    upd f i b k = f k := by simp [upd, h]

/-- The builder `b` was taken out by the commit `i`. -/
def Took (S : List (LayerData K V)) (G : List (Effect (BuilderOp (Op K V)) BuilderRes)) (i : Nat)
    (b : SimpleBuilder K V) : Prop :=
  ∃ A e B, G = A ++ e :: B ∧ e.id = i ∧ e.op = .commit ∧ e.res = .done ∧
    (SimpleBuilder.new S).run (changesOf A) = some b

/-- Some commit is writing or has written. -/
def CommitPhase.Busy : CommitPhase K V → Prop
  | .writing _ | .wrote => True
  | _ => False

/-- What the lock says about the effects so far. -/
def LockOk (S : List (LayerData K V)) (s : BuilderUse K V)
    (G : List (Effect (BuilderOp (Op K V)) BuilderRes)) : Prop :=
  match s.lock with
  | .open b => (∃ cs, stateAfter builderCall (some []) G = some cs) ∧
      (SimpleBuilder.new S).run (changesOf G) = some b ∧ s.written = []
  | .poisoned => (∃ cs, stateAfter builderCall (some []) G = some cs) ∧ s.written = []
  | .taken => stateAfter builderCall (some []) G = none

/-- What holds in all executions. -/
structure Inv (S : List (LayerData K V)) (s : BuilderUse K V)
    (G : List (Effect (BuilderOp (Op K V)) BuilderRes)) : Prop where
  lin : Linearized builderCall (some []) builderBroke builderAgree s.calls G
  past : ∀ e ∈ G, e.time < s.now
  begun : ∀ i c, s.calls i = some c → c.start < s.now
  fresh : ∀ i c, s.calls i = some c → c.answer = none → s.phase i = .begun → ∀ e ∈ G, e.id ≠ i
  unborn : ∀ i, s.calls i = none → s.phase i = .begun
  lock : LockOk S s G
  writing : ∀ i b, s.phase i = .writing b → Took S G i b ∧ ∃ c, s.calls i = some c ∧ c.answer = none
  wrote : ∀ i, s.phase i = .wrote → (∃ b, Took S G i b) ∧ s.written ≠ [] ∧
    ∃ c, s.calls i = some c ∧ c.answer = none
  layer : s.written = [] ∨ ∃ d i b nv pm, s.written = [d] ∧ Took S G i b ∧ nv.Perm b.nvMap ∧
    pm.Perm b.pMap ∧ b.commitWith nv pm = some d ∧ (s.phase i = .wrote ∨ s.phase i = .done)
  success : ∀ i c t, s.calls i = some c → c.op = .commit → c.answer = some (.done, t) →
    s.written ≠ []
  idle : ∀ i c, s.calls i = some c → c.op ≠ .commit → c.answer = none → s.phase i = .begun

theorem Took.append {S : List (LayerData K V)}
    {G : List (Effect (BuilderOp (Op K V)) BuilderRes)} {i : Nat} {b : SimpleBuilder K V}
    (h : Took S G i b) (e : Effect (BuilderOp (Op K V)) BuilderRes) : Took S (G ++ [e]) i b := by
  obtain ⟨A, f, B, rfl, h2⟩ := h
  exact ⟨A, f, B ++ [e], by simp, h2⟩

theorem Took.state {S : List (LayerData K V)}
    {G : List (Effect (BuilderOp (Op K V)) BuilderRes)} {i : Nat} {b : SimpleBuilder K V}
    (h : Took S G i b) : stateAfter builderCall (some []) G = none := by
  obtain ⟨A, f, B, rfl, _, h2, _, _⟩ := h
  rw [stateAfter_append, stateAfter, h2]
  cases stateAfter builderCall (some []) A <;> exact stateAfter_none B

theorem Took.unique {S : List (LayerData K V)}
    {G : List (Effect (BuilderOp (Op K V)) BuilderRes)} {i j : Nat} {b b' : SimpleBuilder K V}
    (hG : Replays builderCall (some []) G) (h : Took S G i b) (h' : Took S G j b') : i = j := by
  obtain ⟨A, e, B, h1, h2, h3, h4, h5⟩ := h
  obtain ⟨A', e', B', g1, g2, g3, g4, g5⟩ := h'
  have := one_commit hG (e := e) (f := e') (by rw [h1]; simp) (by rw [g1]; simp) h3 g3 h4 g4
  rw [← h2, ← g2, this]

/-- A history with one call changed. -/
theorem differsAt_upd {O R : Type} (h : Calls O R) (i : Nat) (c : Option (TimedCall O R)) :
    DiffersAt h (upd h i c) i := fun _ hk => upd_other h c hk

theorem Inv.start (S : List (LayerData K V)) :
    Inv S { lock := .open (SimpleBuilder.new S) } [] where
  lin := Linearized.empty
  past := by simp
  begun := by simp
  fresh := by simp
  unborn := by simp
  lock := ⟨⟨[], rfl⟩, rfl, rfl⟩
  writing := by intro i b h; cases h
  wrote := by intro i h; cases h
  layer := Or.inl rfl
  success := by simp
  idle := by simp

/-- A call that was waiting for the lock takes effect and returns. -/
theorem Inv.answer {S : List (LayerData K V)} {s : BuilderUse K V}
    {G : List (Effect (BuilderOp (Op K V)) BuilderRes)} (h : Inv S s G) {i : Nat}
    {c : TimedCall (BuilderOp (Op K V)) BuilderRes} (hi : s.calls i = some c)
    (ha : c.answer = none) (hp : s.phase i = .begun) {r : BuilderRes} {l : BuilderLock K V}
    (hop : c.op = .commit → r ≠ .done)
    (G' : List (Effect (BuilderOp (Op K V)) BuilderRes))
    (hG' : (r = .panicked ∧ G' = G) ∨ (r = (builderCall (stateAfter builderCall (some []) G) c.op).1 ∧
      G' = G ++ [⟨i, s.now, c.op, r⟩]))
    (hl : LockOk S { s with lock := l } G') :
    Inv S { s.answer i c r with lock := l } G' := by
  have hstart := h.begun i c hi
  have hfr := h.fresh i c hi ha hp
  have hnew : upd s.calls i (some { c with answer := some (r, s.now) }) i =
      some { c with answer := some (r, s.now) } := upd_same _ _ _
  have hlin : Linearized builderCall (some []) builderBroke builderAgree
      (upd s.calls i (some { c with answer := some (r, s.now) })) G' := by
    rcases hG' with ⟨h1, rfl⟩ | ⟨h1, rfl⟩
    · exact h.lin.finish (differsAt_upd _ _ _) hi hnew (fun hb => absurd h1 hb)
        (fun e he hei => absurd hei (hfr e he))
    · exact h.lin.work (differsAt_upd _ _ _) hi ha hnew (by omega) hfr h.past h1 (Or.inl rfl)
  have htook : ∀ j b, Took S G j b → Took S G' j b := by
    intro j b hj
    rcases hG' with ⟨h1, rfl⟩ | ⟨h1, rfl⟩
    · exact hj
    · exact hj.append _
  have hmem : ∀ e ∈ G', e ∈ G ∨ (e.id = i ∧ e.time = s.now) := by
    intro e he
    rcases hG' with ⟨h1, rfl⟩ | ⟨h1, rfl⟩
    · exact Or.inl he
    · rw [List.mem_append, List.mem_singleton] at he
      rcases he with he | rfl
      · exact Or.inl he
      · exact Or.inr ⟨rfl, rfl⟩
  have hother : ∀ {k : Nat}, s.phase k ≠ .begun → k ≠ i := fun hk e => hk (e ▸ hp)
  refine ⟨hlin, ?_, ?_, ?_, ?_, hl, ?_, ?_, ?_, ?_, ?_⟩
  · intro e he
    show e.time < s.now + 1
    rcases hmem e he with h1 | ⟨_, h1⟩
    · have := h.past e h1; omega
    · omega
  · intro k c' hk
    show c'.start < s.now + 1
    replace hk : upd s.calls i _ k = some c' := hk
    by_cases e : k = i
    · subst e
      rw [upd_same] at hk
      cases hk
      show c.start < s.now + 1
      omega
    · rw [upd_other _ _ e] at hk
      have := h.begun k c' hk; omega
  · intro k c' hk hc' hph e he
    replace hk : upd s.calls i _ k = some c' := hk
    replace hph : upd s.phase i _ k = _ := hph
    by_cases e' : k = i
    · subst e'
      rw [upd_same] at hk
      cases hk
      cases hc'
    · rw [upd_other _ _ e'] at hk hph
      rcases hmem e he with h1 | ⟨h1, _⟩
      · exact h.fresh k c' hk hc' hph e h1
      · rw [h1]; exact fun h => e' h.symm
  · intro k hk
    replace hk : upd s.calls i _ k = none := hk
    show upd s.phase i _ k = _
    by_cases e : k = i
    · subst e
      rw [upd_same] at hk
      cases hk
    · rw [upd_other _ _ e] at hk ⊢
      exact h.unborn k hk
  · intro k b hk
    replace hk : upd s.phase i _ k = _ := hk
    by_cases e : k = i
    · subst e
      rw [upd_same] at hk
      cases hk
    · rw [upd_other _ _ e] at hk
      obtain ⟨h1, c', h2, h3⟩ := h.writing k b hk
      exact ⟨htook _ _ h1, c', by show upd s.calls i _ k = _; rw [upd_other _ _ e]; exact h2, h3⟩
  · intro k hk
    replace hk : upd s.phase i _ k = _ := hk
    by_cases e : k = i
    · subst e
      rw [upd_same] at hk
      cases hk
    · rw [upd_other _ _ e] at hk
      obtain ⟨⟨b, h1⟩, hw, c', h2, h3⟩ := h.wrote k hk
      exact ⟨⟨b, htook _ _ h1⟩, hw, c',
        by show upd s.calls i _ k = _; rw [upd_other _ _ e]; exact h2, h3⟩
  · rcases h.layer with h1 | ⟨d, k, b, nv, pm, h1, h2, h3, h4, h5, h6⟩
    · exact Or.inl h1
    · refine Or.inr ⟨d, k, b, nv, pm, h1, htook _ _ h2, h3, h4, h5, ?_⟩
      have e : k ≠ i := hother (by rcases h6 with h6 | h6 <;> rw [h6] <;> simp)
      show upd s.phase i _ k = _ ∨ upd s.phase i _ k = _
      rw [upd_other _ _ e]
      exact h6
  · intro k c' t hk ho ht
    replace hk : upd s.calls i _ k = some c' := hk
    by_cases e : k = i
    · subst e
      rw [upd_same] at hk
      cases hk
      simp only [Option.some.injEq, Prod.mk.injEq] at ht
      exact absurd ht.1 (hop ho)
    · rw [upd_other _ _ e] at hk
      exact h.success k c' t hk ho ht
  · intro k c' hk ho hc
    replace hk : upd s.calls i _ k = some c' := hk
    show upd s.phase i _ k = _
    by_cases e : k = i
    · subst e
      rw [upd_same] at hk
      cases hk
      cases hc
    · rw [upd_other _ _ e] at hk ⊢
      exact h.idle k c' hk ho hc

/-- A commit that has taken the builder returns. -/
theorem Inv.leave {S : List (LayerData K V)} {s : BuilderUse K V}
    {G : List (Effect (BuilderOp (Op K V)) BuilderRes)} (h : Inv S s G) {i : Nat}
    {c : TimedCall (BuilderOp (Op K V)) BuilderRes} (hi : s.calls i = some c)
    {b : SimpleBuilder K V} (ht : Took S G i b) (_ha : c.answer = none)
    {r : BuilderRes} (hr : builderAgree .done r)
    (hw : r = .done → s.written ≠ [])
    (hlay : ∀ k, s.phase k = .wrote ∨ s.phase k = .done → upd s.phase i .done k = .wrote ∨
      upd s.phase i .done k = .done) :
    Inv S (s.answer i c r) G := by
  have hnew : upd s.calls i (some { c with answer := some (r, s.now) }) i =
      some { c with answer := some (r, s.now) } := upd_same _ _ _
  obtain ⟨A, e, B, hGe, he1, he2, he3, he4⟩ := id ht
  have heG : e ∈ G := by rw [hGe]; simp
  have hlin : Linearized builderCall (some []) builderBroke builderAgree
      (upd s.calls i (some { c with answer := some (r, s.now) })) G := by
    refine h.lin.finish (differsAt_upd _ _ _) hi hnew (fun _ => ⟨e, heG, he1⟩) ?_
    intro f hf hfi
    have : f = e := h.lin.same hf heG (by rw [hfi, he1])
    subst this
    rw [he3]
    exact ⟨hr, Nat.le_of_lt (h.past f hf)⟩
  have hcop : c.op = .commit := by
    obtain ⟨c', h1, h2, _⟩ := h.lin.sound e heG
    rw [he1, hi] at h1
    cases h1
    rw [h2, he2]
  refine ⟨hlin, ?_, ?_, ?_, ?_, h.lock, ?_, ?_, ?_, ?_, ?_⟩
  · intro e he
    show e.time < s.now + 1
    have := h.past e he; omega
  · intro k c' hk
    show c'.start < s.now + 1
    replace hk : upd s.calls i _ k = some c' := hk
    by_cases e : k = i
    · subst e
      rw [upd_same] at hk
      cases hk
      have := h.begun k c hi
      show c.start < s.now + 1
      omega
    · rw [upd_other _ _ e] at hk
      have := h.begun k c' hk; omega
  · intro k c' hk hc' hph e he
    replace hk : upd s.calls i _ k = some c' := hk
    replace hph : upd s.phase i _ k = _ := hph
    by_cases e' : k = i
    · subst e'
      rw [upd_same] at hk
      cases hk
      cases hc'
    · rw [upd_other _ _ e'] at hk hph
      exact h.fresh k c' hk hc' hph e he
  · intro k hk
    replace hk : upd s.calls i _ k = none := hk
    show upd s.phase i _ k = _
    by_cases e : k = i
    · subst e
      rw [upd_same] at hk
      cases hk
    · rw [upd_other _ _ e] at hk ⊢
      exact h.unborn k hk
  · intro k b hk
    replace hk : upd s.phase i _ k = _ := hk
    by_cases e : k = i
    · subst e
      rw [upd_same] at hk
      cases hk
    · rw [upd_other _ _ e] at hk
      obtain ⟨h1, c', h2, h3⟩ := h.writing k b hk
      exact ⟨h1, c', by show upd s.calls i _ k = _; rw [upd_other _ _ e]; exact h2, h3⟩
  · intro k hk
    replace hk : upd s.phase i _ k = _ := hk
    by_cases e : k = i
    · subst e
      rw [upd_same] at hk
      cases hk
    · rw [upd_other _ _ e] at hk
      obtain ⟨h1, hw, c', h2, h3⟩ := h.wrote k hk
      exact ⟨h1, hw, c', by show upd s.calls i _ k = _; rw [upd_other _ _ e]; exact h2, h3⟩
  · rcases h.layer with h1 | ⟨d, k, b, nv, pm, h1, h2, h3, h4, h5, h6⟩
    · exact Or.inl h1
    · exact Or.inr ⟨d, k, b, nv, pm, h1, h2, h3, h4, h5, hlay k h6⟩
  · intro k c' t hk ho ht
    replace hk : upd s.calls i _ k = some c' := hk
    by_cases e : k = i
    · subst e
      rw [upd_same] at hk
      cases hk
      simp only [Option.some.injEq, Prod.mk.injEq] at ht
      exact hw ht.1
    · rw [upd_other _ _ e] at hk
      exact h.success k c' t hk ho ht
  · intro k c' hk ho hc
    replace hk : upd s.calls i _ k = some c' := hk
    show upd s.phase i _ k = _
    by_cases e : k = i
    · subst e
      rw [upd_same] at hk
      cases hk
      cases hc
    · rw [upd_other _ _ e] at hk ⊢
      exact h.idle k c' hk ho hc

theorem done_of_phase {s : BuilderUse K V} {i : Nat} :
    ∀ k, s.phase k = .wrote ∨ s.phase k = .done → upd s.phase i .done k = .wrote ∨
      upd s.phase i .done k = .done := by
  intro k hk
  by_cases e : k = i
  · subst e
    right
    rw [upd_same]
  · rw [upd_other _ _ e]
    exact hk

theorem Inv.step {S : List (LayerData K V)} {s s' : BuilderUse K V}
    {G : List (Effect (BuilderOp (Op K V)) BuilderRes)} (h : Inv S s G) (hs : Step s s') :
    ∃ G', Inv S s' G' := by
  cases hs with
  | @start i op hi =>
    refine ⟨G, h.lin.start (differsAt_upd _ _ _) hi (upd_same _ _ _), ?_, ?_, ?_, ?_, h.lock, ?_, ?_,
      h.layer, ?_, ?_⟩
    · intro e he
      show e.time < s.now + 1
      have := h.past e he; omega
    · intro k c' hk
      show c'.start < s.now + 1
      replace hk : upd s.calls i _ k = some c' := hk
      by_cases e : k = i
      · subst e
        rw [upd_same] at hk
        cases hk
        show s.now < s.now + 1
        omega
      · rw [upd_other _ _ e] at hk
        have := h.begun k c' hk; omega
    · intro k c' hk hc' hph e he
      replace hk : upd s.calls i _ k = some c' := hk
      by_cases e' : k = i
      · subst e'
        obtain ⟨c2, h2, _⟩ := h.lin.sound e he
        intro h3
        rw [h3, hi] at h2
        cases h2
      · rw [upd_other _ _ e'] at hk
        exact h.fresh k c' hk hc' hph e he
    · intro k hk
      replace hk : upd s.calls i _ k = none := hk
      by_cases e : k = i
      · subst e
        exact h.unborn k hi
      · rw [upd_other _ _ e] at hk
        exact h.unborn k hk
    · intro k b hk
      obtain ⟨h1, c', h2, h3⟩ := h.writing k b hk
      have e : k ≠ i := by intro e; rw [e, hi] at h2; cases h2
      exact ⟨h1, c', by show upd s.calls i _ k = _; rw [upd_other _ _ e]; exact h2, h3⟩
    · intro k hk
      obtain ⟨h1, hw, c', h2, h3⟩ := h.wrote k hk
      have e : k ≠ i := by intro e; rw [e, hi] at h2; cases h2
      exact ⟨h1, hw, c', by show upd s.calls i _ k = _; rw [upd_other _ _ e]; exact h2, h3⟩
    · intro k c' t hk ho ht
      replace hk : upd s.calls i _ k = some c' := hk
      by_cases e : k = i
      · subst e
        rw [upd_same] at hk
        cases hk
        cases ht
      · rw [upd_other _ _ e] at hk
        exact h.success k c' t hk ho ht
    · intro k c' hk ho hc
      replace hk : upd s.calls i _ k = some c' := hk
      show s.phase k = _
      by_cases e : k = i
      · subst e
        exact h.unborn k hi
      · rw [upd_other _ _ e] at hk
        exact h.idle k c' hk ho hc
  | @change i c op hi ha ho =>
    have hlock := h.lock
    have hp : s.phase i = .begun := h.idle i c hi (by rw [ho]; simp) ha
    have hop : c.op = .commit → (withBuilder s.lock op).1 ≠ .done := by rw [ho]; intro hc; cases hc
    unfold LockOk at hlock
    cases hl : s.lock with
    | taken =>
      rw [hl] at hlock hop
      refine ⟨_, h.answer hi ha hp hop _ (Or.inr ⟨?_, rfl⟩) ?_⟩
      · rw [hlock, ho]; rfl
      · show LockOk S { s with lock := .taken } _
        unfold LockOk
        simp only
        rw [stateAfter_append, hlock, stateAfter_none]
    | poisoned =>
      rw [hl] at hlock hop
      exact ⟨_, h.answer hi ha hp hop _ (Or.inl ⟨rfl, rfl⟩) (by unfold LockOk; exact hlock)⟩
    | «open» b =>
      rw [hl] at hlock hop
      obtain ⟨⟨cs, h1⟩, h2, h3⟩ := hlock
      unfold withBuilder at hop ⊢
      simp only at hop ⊢
      cases hb : b.step op with
      | none =>
        rw [hb] at hop
        exact ⟨_, h.answer hi ha hp hop _ (Or.inl ⟨rfl, rfl⟩) (by unfold LockOk; exact ⟨⟨cs, h1⟩, h3⟩)⟩
      | some b' =>
        rw [hb] at hop
        refine ⟨_, h.answer hi ha hp hop _ (Or.inr ⟨?_, rfl⟩) ?_⟩
        · rw [h1, ho]; rfl
        · unfold LockOk
          simp only
          refine ⟨⟨cs ++ [op], ?_⟩, ?_, h3⟩
          · rw [stateAfter_append, h1, ho]; rfl
          · rw [changesOf_append, SimpleBuilder.run_append, h2, ho]
            simp [changesOf, SimpleBuilder.run, hb]
  | @committed i c hi ha ho =>
    have hlock := h.lock
    have hp : s.phase i = .begun := h.idle i c hi (by rw [ho]; simp) ha
    have hop : ∀ r, c.op = .commit → r ≠ BuilderRes.done := by rw [ho]; intro _ hc; cases hc
    have keep : ∀ G', Inv S { s.answer i c (committed s.lock) with lock := s.lock } G' →
        Inv S (s.answer i c (committed s.lock)) G' := fun _ h => h
    unfold LockOk at hlock
    cases hl : s.lock with
    | taken =>
      rw [hl] at hlock keep
      refine ⟨_, keep _ (h.answer hi ha hp (hop _) _ (Or.inr ⟨?_, rfl⟩) ?_)⟩
      · rw [hlock, ho]; rfl
      · unfold LockOk
        simp only
        rw [stateAfter_append, hlock, stateAfter_none]
    | poisoned =>
      rw [hl] at hlock keep
      exact ⟨_, keep _ (h.answer hi ha hp (hop _) _ (Or.inl ⟨rfl, rfl⟩)
        (by unfold LockOk; exact hlock))⟩
    | «open» b =>
      rw [hl] at hlock keep
      obtain ⟨⟨cs, h1⟩, h2, h3⟩ := hlock
      refine ⟨_, keep _ (h.answer hi ha hp (hop _) _ (Or.inr ⟨?_, rfl⟩) ?_)⟩
      · rw [h1, ho]; rfl
      · unfold LockOk
        simp only
        refine ⟨⟨cs, ?_⟩, ?_, h3⟩
        · rw [stateAfter_append, h1, ho]; rfl
        · rw [changesOf_append, ho]
          simp [changesOf, h2]
  | @refuse i c r hi ha ho hp hr =>
    have hlock := h.lock
    unfold LockOk at hlock
    cases hl : s.lock with
    | «open» b => rw [hl] at hr; cases hr
    | taken =>
      rw [hl] at hlock hr
      simp only [takeBuilder, Sum.inr.injEq] at hr
      subst hr
      refine ⟨_, h.answer hi ha hp (by intro _ hc; cases hc) _ (Or.inr ⟨?_, rfl⟩) ?_⟩
      · rw [hlock, ho]; rfl
      · show LockOk S { s with lock := .taken } _
        unfold LockOk
        simp only
        rw [stateAfter_append, hlock, stateAfter_none]
    | poisoned =>
      rw [hl] at hlock hr
      simp only [takeBuilder, Sum.inr.injEq] at hr
      subst hr
      exact ⟨_, h.answer hi ha hp (by intro _ hc; cases hc) _ (Or.inl ⟨rfl, rfl⟩)
        (by unfold LockOk; exact hlock)⟩
  | @take i c b hi ha ho hp hr =>
    have hlock := h.lock
    unfold LockOk at hlock
    cases hl : s.lock with
    | taken => rw [hl] at hr; cases hr
    | poisoned => rw [hl] at hr; cases hr
    | «open» b' =>
      rw [hl] at hlock hr
      simp only [takeBuilder, Sum.inl.injEq] at hr
      subst hr
      obtain ⟨⟨cs, h1⟩, h2, h3⟩ := hlock
      have hstart := h.begun i c hi
      have hfr := h.fresh i c hi ha hp
      have hlin := h.lin.snoc (e := ⟨i, s.now, .commit, .done⟩) hi ha ho (by simpa using by omega)
        hfr h.past (by rw [h1]; rfl)
      have htook : Took S (G ++ [⟨i, s.now, .commit, .done⟩]) i b' :=
        ⟨G, _, [], rfl, rfl, rfl, rfl, h2⟩
      have hother : ∀ {k : Nat}, s.phase k ≠ .begun → k ≠ i := fun hk e => hk (e ▸ hp)
      refine ⟨_, hlin, ?_, ?_, ?_, ?_, ?_, ?_, ?_, Or.inl h3, ?_, ?_⟩
      · intro e he
        show e.time < s.now + 1
        rw [List.mem_append, List.mem_singleton] at he
        rcases he with he | rfl
        · have := h.past e he; omega
        · exact Nat.lt_succ_self _
      · intro k c' hk
        show c'.start < s.now + 1
        have := h.begun k c' hk; omega
      · intro k c' hk hc' hph e he
        replace hph : upd s.phase i _ k = _ := hph
        have e' : k ≠ i := by
          intro e'
          rw [e', upd_same] at hph
          cases hph
        rw [upd_other _ _ e'] at hph
        rw [List.mem_append, List.mem_singleton] at he
        rcases he with he | rfl
        · exact h.fresh k c' hk hc' hph e he
        · exact fun h => e' h.symm
      · intro k hk
        have e' : k ≠ i := by
          intro e'
          rw [e', hi] at hk
          cases hk
        show upd s.phase i _ k = _
        rw [upd_other _ _ e']
        exact h.unborn k hk
      · show stateAfter builderCall (some []) (G ++ [⟨i, s.now, .commit, .done⟩]) = none
        exact htook.state
      · intro k b hk
        replace hk : upd s.phase i _ k = _ := hk
        by_cases e : k = i
        · subst e
          rw [upd_same] at hk
          cases hk
          exact ⟨htook, c, hi, ha⟩
        · rw [upd_other _ _ e] at hk
          obtain ⟨g1, g2⟩ := h.writing k b hk
          exact ⟨g1.append _, g2⟩
      · intro k hk
        replace hk : upd s.phase i _ k = _ := hk
        have e' : k ≠ i := by
          intro e'
          rw [e', upd_same] at hk
          cases hk
        rw [upd_other _ _ e'] at hk
        obtain ⟨⟨b, g1⟩, g2⟩ := h.wrote k hk
        exact ⟨⟨b, g1.append _⟩, g2⟩
      · exact h.success
      · intro k c' hk ho' hc
        show upd s.phase i _ k = _
        have e' : k ≠ i := by
          intro e'
          rw [e', hi] at hk
          cases hk
          exact ho' ho
        rw [upd_other _ _ e']
        exact h.idle k c' hk ho' hc
  | @write i b nv pm d hp hnv hpm hd =>
    obtain ⟨htook, c, hi, ha⟩ := h.writing i b hp
    have hw : s.written = [] := by
      rcases h.layer with h1 | ⟨d', k, b', nv', pm', h1, h2, h3, h4, h5, h6⟩
      · exact h1
      · have := htook.unique h.lin.replays h2
        subst this
        rcases h6 with h6 | h6 <;> rw [hp] at h6 <;> cases h6
    have hlock : LockOk S { s with written := d :: s.written } G := by
      have hl := h.lock
      have hst := htook.state
      unfold LockOk at hl ⊢
      simp only
      cases hl' : s.lock with
      | taken => rw [hl'] at hl; exact hl
      | poisoned =>
        rw [hl'] at hl
        obtain ⟨⟨cs, h1⟩, _⟩ := hl
        rw [hst] at h1
        cases h1
      | «open» b' =>
        rw [hl'] at hl
        obtain ⟨⟨cs, h1⟩, _⟩ := hl
        rw [hst] at h1
        cases h1
    have hcop : c.op = .commit := by
      obtain ⟨A, e, B, hGe, he1, he2, _⟩ := id htook
      obtain ⟨c', h1, h2, _⟩ := h.lin.sound e (by rw [hGe]; simp)
      rw [he1, hi] at h1
      cases h1
      rw [h2, he2]
    refine ⟨G, h.lin, ?_, ?_, ?_, ?_, hlock, ?_, ?_, ?_, ?_, ?_⟩
    · intro e he
      show e.time < s.now + 1
      have := h.past e he; omega
    · intro k c' hk
      show c'.start < s.now + 1
      have := h.begun k c' hk; omega
    · intro k c' hk hc' hph e he
      replace hph : upd s.phase i _ k = _ := hph
      have e' : k ≠ i := by
        intro e'
        rw [e', upd_same] at hph
        cases hph
      rw [upd_other _ _ e'] at hph
      exact h.fresh k c' hk hc' hph e he
    · intro k hk
      have e' : k ≠ i := by
        intro e'
        rw [e', hi] at hk
        cases hk
      show upd s.phase i _ k = _
      rw [upd_other _ _ e']
      exact h.unborn k hk
    · intro k b hk
      replace hk : upd s.phase i _ k = _ := hk
      have e' : k ≠ i := by
        intro e'
        rw [e', upd_same] at hk
        cases hk
      rw [upd_other _ _ e'] at hk
      exact h.writing k b hk
    · intro k hk
      replace hk : upd s.phase i _ k = _ := hk
      by_cases e : k = i
      · subst e
        exact ⟨⟨b, htook⟩, by simp, c, hi, ha⟩
      · rw [upd_other _ _ e] at hk
        obtain ⟨g1, _, g2⟩ := h.wrote k hk
        exact ⟨g1, by simp, g2⟩
    · exact Or.inr ⟨d, i, b, nv, pm, by rw [hw], htook, hnv, hpm, hd, Or.inl (upd_same _ _ _)⟩
    · intro k c' t hk ho ht
      show d :: s.written ≠ []
      simp
    · intro k c' hk ho' hc
      show upd s.phase i _ k = _
      have e' : k ≠ i := by
        intro e'
        rw [e', hi] at hk
        cases hk
        exact ho' hcop
      rw [upd_other _ _ e']
      exact h.idle k c' hk ho' hc
  | @fail i c b hi hp =>
    obtain ⟨h1, c', h2, h3⟩ := h.writing i b hp
    rw [hi] at h2
    cases h2
    exact ⟨G, h.leave hi h1 h3 (Or.inr ⟨rfl, Or.inl rfl⟩) (by intro hc; cases hc) done_of_phase⟩
  | @panic i c b nv pm hi hp =>
    obtain ⟨h1, c', h2, h3⟩ := h.writing i b hp
    rw [hi] at h2
    cases h2
    exact ⟨G, h.leave hi h1 h3 (Or.inr ⟨rfl, Or.inr rfl⟩) (by intro hc; cases hc) done_of_phase⟩
  | @finish i c hi hp =>
    obtain ⟨⟨b, h1⟩, hw, c', h2, h3⟩ := h.wrote i hp
    rw [hi] at h2
    cases h2
    exact ⟨G, h.leave hi h1 h3 (Or.inl rfl) (fun _ => hw) done_of_phase⟩

theorem Run.inv {S : List (LayerData K V)} {s : BuilderUse K V} (h : Run S s) :
    ∃ G, Inv S s G := by
  induction h with
  | start => exact ⟨[], Inv.start S⟩
  | step _ hs ih =>
    obtain ⟨G, hG⟩ := ih
    exact hG.step hs

end BuilderUse

end Verif
