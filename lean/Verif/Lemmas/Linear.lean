import Verif.BuilderSpec

/-!
Histories that are as if the calls happened one at a time: how such a list of effects grows.
-/

namespace Verif.Spec

variable {σ O R : Type} {call : σ → O → R × σ} {init : σ} {broke : R → Prop}
  {agree : R → R → Prop} {h h' : Calls O R} {G : List (Effect O R)}

theorem stateAfter_append (s : σ) (A B : List (Effect O R)) :
    stateAfter call s (A ++ B) = stateAfter call (stateAfter call s A) B := by
  induction A generalizing s with
  | nil => rfl
  | cons e A ih => exact ih _

theorem replays_append (s : σ) (A B : List (Effect O R)) :
    Replays call s (A ++ B) ↔ Replays call s A ∧ Replays call (stateAfter call s A) B := by
  induction A generalizing s with
  | nil => simp [Replays, stateAfter]
  | cons e A ih =>
    simp only [List.cons_append, Replays, stateAfter]
    rw [ih, and_assoc]

theorem Linearized.empty : Linearized call init broke agree (fun _ => none) [] :=
  ⟨trivial, List.Pairwise.nil, List.Pairwise.nil, (by simp), (by simp)⟩

/-- Histories that differ in one call. -/
def DiffersAt (h h' : Calls O R) (i : Nat) : Prop := ∀ k, k ≠ i → h' k = h k

/-- A new call. -/
theorem Linearized.start (hG : Linearized call init broke agree h G) {i : Nat}
    (hd : DiffersAt h h' i) (hi : h i = none) {op : O} {t : Nat} (hi' : h' i = some ⟨op, t, none⟩) :
    Linearized call init broke agree h' G := by
  refine ⟨hG.replays, hG.sorted, hG.once, ?_, ?_⟩
  · intro k c r u hk ha hr
    by_cases e : k = i
    · subst e
      rw [hi'] at hk
      cases hk
      cases ha
    · rw [hd k e] at hk
      exact hG.complete k c r u hk ha hr
  · intro e he
    obtain ⟨c, h1, h2⟩ := hG.sound e he
    have : e.id ≠ i := by
      intro hc
      rw [hc, hi] at h1
      cases h1
    exact ⟨c, by rw [hd _ this]; exact h1, h2⟩

/-- A call that took effect, or broke off, returns. -/
theorem Linearized.finish (hG : Linearized call init broke agree h G) {i : Nat}
    {c : TimedCall O R} (hd : DiffersAt h h' i) (hi : h i = some c) {r : R} {t : Nat}
    (hi' : h' i = some { c with answer := some (r, t) })
    (hr : ¬ broke r → ∃ e ∈ G, e.id = i)
    (hs : ∀ e ∈ G, e.id = i → agree e.res r ∧ e.time ≤ t) :
    Linearized call init broke agree h' G := by
  refine ⟨hG.replays, hG.sorted, hG.once, ?_, ?_⟩
  · intro k c' r' u hk ha hr'
    by_cases e : k = i
    · subst e
      rw [hi'] at hk
      cases hk
      cases ha
      exact hr hr'
    · rw [hd k e] at hk
      exact hG.complete k c' r' u hk ha hr'
  · intro e he
    obtain ⟨c', h1, h2, h3, h4⟩ := hG.sound e he
    by_cases hc : e.id = i
    · rw [hc, hi] at h1
      cases h1
      refine ⟨{ c with answer := some (r, t) }, by rw [hc]; exact hi', h2, h3, ?_⟩
      intro r' t' ha
      cases ha
      exact hs e he hc
    · exact ⟨c', by rw [hd _ hc]; exact h1, h2, h3, h4⟩

/-- A call that is not answered takes effect now. -/
theorem Linearized.snoc (hG : Linearized call init broke agree h G) {e : Effect O R}
    {c : TimedCall O R} (hc : h e.id = some c) (ha : c.answer = none) (ho : c.op = e.op)
    (ht : c.start ≤ e.time) (hid : ∀ x ∈ G, x.id ≠ e.id) (htime : ∀ x ∈ G, x.time < e.time)
    (hres : e.res = (call (stateAfter call init G) e.op).1) :
    Linearized call init broke agree h (G ++ [e]) := by
  refine ⟨?_, ?_, ?_, ?_, ?_⟩
  · rw [replays_append]
    exact ⟨hG.replays, hres, trivial⟩
  · rw [List.pairwise_append]
    refine ⟨hG.sorted, List.pairwise_singleton _ _, ?_⟩
    intro x hx y hy
    rw [List.mem_singleton] at hy
    subst hy
    exact htime x hx
  · rw [List.pairwise_append]
    refine ⟨hG.once, List.pairwise_singleton _ _, ?_⟩
    intro x hx y hy
    rw [List.mem_singleton] at hy
    subst hy
    exact hid x hx
  · intro i c' r t hi ha' hr
    obtain ⟨x, hx, hxi⟩ := hG.complete i c' r t hi ha' hr
    exact ⟨x, by simp [hx], hxi⟩
  · intro x hx
    rw [List.mem_append, List.mem_singleton] at hx
    rcases hx with hx | rfl
    · exact hG.sound x hx
    · exact ⟨c, hc, ho, ht, fun r t h => by rw [ha] at h; cases h⟩

/-- A call takes effect and returns. -/
theorem Linearized.work (hG : Linearized call init broke agree h G) {i now : Nat}
    {c : TimedCall O R} (hd : DiffersAt h h' i) (hi : h i = some c) (ha : c.answer = none)
    {r r' : R} (hi' : h' i = some { c with answer := some (r', now) })
    (ht : c.start ≤ now) (hid : ∀ x ∈ G, x.id ≠ i) (htime : ∀ x ∈ G, x.time < now)
    (hres : r = (call (stateAfter call init G) c.op).1) (hag : agree r r') :
    Linearized call init broke agree h' (G ++ [⟨i, now, c.op, r⟩]) := by
  have h1 := hG.snoc (e := ⟨i, now, c.op, r⟩) hi ha rfl ht hid htime hres
  refine h1.finish hd hi hi' ?_ ?_
  · intro _
    exact ⟨_, List.mem_append_right _ (List.mem_singleton.2 rfl), rfl⟩
  · intro e he hei
    rw [List.mem_append, List.mem_singleton] at he
    rcases he with he | rfl
    · exact absurd hei (hid e he)
    · exact ⟨hag, Nat.le_refl _⟩

/-- Of two effects of a list, the one before the other. -/
theorem Linearized.order (hG : Linearized call init broke agree h G) {e f : Effect O R}
    (he : e ∈ G) (hf : f ∈ G) (ht : e.time < f.time) :
    ∃ A B C, G = A ++ e :: (B ++ f :: C) := by
  obtain ⟨A, B, rfl⟩ := List.append_of_mem he
  rw [List.mem_append, List.mem_cons] at hf
  have hs := List.pairwise_append.1 hG.sorted
  rcases hf with hf | rfl | hf
  · have := hs.2.2 f hf e (List.mem_cons_self ..)
    omega
  · omega
  · obtain ⟨B1, B2, rfl⟩ := List.append_of_mem hf
    exact ⟨A, B1, B2, rfl⟩

theorem Linearized.same (hG : Linearized call init broke agree h G) {e f : Effect O R}
    (he : e ∈ G) (hf : f ∈ G) (hid : e.id = f.id) : e = f := by
  obtain ⟨A, B, rfl⟩ := List.append_of_mem he
  have hs := List.pairwise_append.1 hG.once
  rw [List.mem_append, List.mem_cons] at hf
  rcases hf with hf | rfl | hf
  · exact absurd hid.symm (hs.2.2 f hf e (List.mem_cons_self ..))
  · rfl
  · exact absurd hid ((List.pairwise_cons.1 hs.2.1).1 f hf)

/-! ### Builders -/

section Builder
variable {C : Type} {G : List (Effect (BuilderOp C) BuilderRes)}

theorem changesOf_append (A B : List (Effect (BuilderOp C) BuilderRes)) :
    changesOf (A ++ B) = changesOf A ++ changesOf B := by
  induction A with
  | nil => rfl
  | cons e A ih =>
    obtain ⟨i, t, op, r⟩ := e
    cases op <;> simp [changesOf, ih]

theorem acceptedOf_append (A B : List (Effect (BuilderOp C) BuilderRes)) :
    acceptedOf (A ++ B) = acceptedOf A ++ acceptedOf B := by
  induction A with
  | nil => rfl
  | cons e A ih =>
    obtain ⟨i, t, op, r⟩ := e
    cases op <;> cases r <;> simp [acceptedOf, ih]

theorem mem_acceptedOf {c : C} : c ∈ acceptedOf G ↔ ∃ i t, ⟨i, t, .change c, .done⟩ ∈ G := by
  induction G with
  | nil => simp [acceptedOf]
  | cons e G ih =>
    obtain ⟨i, t, op, r⟩ := e
    cases op with
    | change c' =>
      cases r <;> simp only [acceptedOf, List.mem_cons, Effect.mk.injEq, ih, BuilderOp.change.injEq,
        reduceCtorEq, and_false, false_or]
      constructor
      · rintro (rfl | ⟨i', t', h⟩)
        · exact ⟨i, t, Or.inl ⟨rfl, rfl, rfl, trivial⟩⟩
        · exact ⟨i', t', Or.inr h⟩
      · rintro ⟨i', t', ⟨_, _, h, _⟩ | h⟩
        · exact Or.inl h
        · exact Or.inr ⟨i', t', h⟩
    | committed => simp [acceptedOf, ih]
    | commit => simp [acceptedOf, ih]

theorem stateAfter_none (G : List (Effect (BuilderOp C) BuilderRes)) :
    stateAfter builderCall none G = none := by
  induction G with
  | nil => rfl
  | cons e G ih =>
    simp only [stateAfter]
    cases e.op <;> exact ih

/-- After a commit everything is refused. -/
theorem replays_none (h : Replays builderCall none G) :
    ∀ e ∈ G, e.res = match e.op with | .committed => .flag true | _ => .refused := by
  induction G with
  | nil => simp
  | cons e G ih =>
    obtain ⟨h1, h2⟩ := h
    have h2' : Replays builderCall none G := by cases he : e.op <;> rw [he] at h2 <;> exact h2
    intro f hf
    rcases List.mem_cons.1 hf with rfl | hf
    · rw [h1]
      cases f.op <;> rfl
    · exact ih h2' f hf

theorem acceptedOf_none (h : Replays builderCall none G) : acceptedOf G = [] := by
  rw [List.eq_nil_iff_forall_not_mem]
  intro c hc
  obtain ⟨i, t, hm⟩ := mem_acceptedOf.1 hc
  have := replays_none h _ hm
  cases this

/-- While a builder is open, its state is the changes made so far, all of them accepted. -/
theorem stateAfter_some {cs cs' : List C} (h : Replays builderCall (some cs) G)
    (hs : stateAfter builderCall (some cs) G = some cs') :
    cs' = cs ++ changesOf G ∧ acceptedOf G = changesOf G ∧ ∀ e ∈ G, e.op ≠ .commit := by
  induction G generalizing cs with
  | nil =>
    simp only [stateAfter, Option.some.injEq] at hs
    simp [changesOf, acceptedOf, hs]
  | cons e G ih =>
    obtain ⟨i, t, op, r⟩ := e
    obtain ⟨h1, h2⟩ := h
    simp only [stateAfter] at hs
    cases op with
    | change c =>
      obtain ⟨a1, a2, a3⟩ := ih h2 hs
      simp only at h1
      refine ⟨by simp [changesOf, a1], ?_, ?_⟩
      · rw [h1]
        simp [acceptedOf, changesOf, builderCall, a2]
      · intro e he
        rcases List.mem_cons.1 he with rfl | he
        · simp
        · exact a3 e he
    | committed =>
      obtain ⟨a1, a2, a3⟩ := ih h2 hs
      refine ⟨by simpa [changesOf] using a1, by simpa [changesOf, acceptedOf] using a2, ?_⟩
      intro e he
      rcases List.mem_cons.1 he with rfl | he
      · simp
      · exact a3 e he
    | commit =>
      exfalso
      rw [show (builderCall (some cs) BuilderOp.commit).2 = none from rfl, stateAfter_none] at hs
      cases hs

/-- What is known of a builder at a commit that was let through. -/
theorem replays_commit {A B : List (Effect (BuilderOp C) BuilderRes)}
    {e : Effect (BuilderOp C) BuilderRes}
    (h : Replays builderCall (some []) (A ++ e :: B)) (ho : e.op = .commit) (hr : e.res = .done) :
    (∀ f ∈ A, f.op ≠ .commit) ∧ acceptedOf (A ++ e :: B) = changesOf A ∧
      Replays builderCall (none : Option (List C)) B := by
  rw [replays_append] at h
  obtain ⟨h1, h2, h3⟩ := h
  cases hst : stateAfter builderCall (some []) A with
  | none =>
    rw [hst, ho, hr] at h2
    cases h2
  | some cs =>
    obtain ⟨a1, a2, a3⟩ := stateAfter_some h1 hst
    rw [hst, ho] at h3
    have h3' : Replays builderCall (none : Option (List C)) B := h3
    refine ⟨a3, ?_, h3'⟩
    obtain ⟨i, t, op, r⟩ := e
    simp only at ho
    subst ho
    rw [acceptedOf_append, a2]
    simp [acceptedOf, acceptedOf_none h3']

/-- Only one commit is let through. -/
theorem one_commit (h : Replays builderCall (some []) G) {e f : Effect (BuilderOp C) BuilderRes}
    (he : e ∈ G) (hf : f ∈ G) (heo : e.op = .commit) (hfo : f.op = .commit) (her : e.res = .done)
    (hfr : f.res = .done) : e = f := by
  obtain ⟨A, B, rfl⟩ := List.append_of_mem he
  obtain ⟨h1, _, h3⟩ := replays_commit h heo her
  rw [List.mem_append, List.mem_cons] at hf
  rcases hf with hf | rfl | hf
  · exact absurd hfo (h1 f hf)
  · rfl
  · have := replays_none h3 f hf
    rw [hfo, hfr] at this
    cases this

end Builder

end Verif.Spec
