import Verif.Lemmas.ConcGrow

/-!
When calls are made one after the other, the specification of calls at the same time
(`Verif/ConcSpec.lean`) allows nothing more than the specification of one call after the other
(`Verif/ApiSpec.lean`).
-/

namespace Verif.Conc

open Spec Api State

set_option linter.unusedSectionVars false

variable {K V L : Type} [DecidableEq L]

/-- How far the only call under way has come, when it began in the state `s₀` and the state is
now `s`. -/
inductive During (s₀ : State K V L) (c : Req K V L) : State K V L → Pending K V L → Prop
  | closing {b x cs load} :
      (c = .commit b ∧ load = true) ∨ (c = .commitNoLoad b ∧ load = false) →
      s₀.builders[b]? = some x → x.calls = some cs →
      During s₀ c (s₀.setBuilder b { x with calls := none }) (.closing b cs load)
  | rolling {n upto new} : Rolls s₀ c n upto → Needs s₀ n upto → s₀.Fresh new →
      During s₀ c { s₀ with hidden := new :: s₀.hidden } (.rolling n upto)
  | applyingDelta {b h x n d e cs} : c = .applyDelta b h → s₀.builders[b]? = some x →
      s₀.handles[h]? = some n → x.calls = some d →
      Leads (s₀.log.below (s₀.log.parent n)) (s₀.log.triples n) (e ++ cs) →
      During s₀ c (s₀.setBuilder b { x with calls := some (d ++ e) }) (.applying b cs false)
  | applyingSkip {b h x n cs} : c = .applyDelta b h → s₀.builders[b]? = some x →
      s₀.handles[h]? = some n → x.calls = none → During s₀ c s₀ (.applying b cs false)
  | applyingDiff {b h x n d e cs} : c = .applyDiff b h → s₀.builders[b]? = some x →
      s₀.handles[h]? = some n → x.calls = some d →
      Leads (s₀.log.below x.parent) (s₀.log.triples n) (e ++ cs) →
      During s₀ c (s₀.setBuilder b { x with calls := some (d ++ e) }) (.applying b cs true)
  | answered {s r held} :
      Step s₀ c (CState.numbered s.handles.length r) { s with handles := s.handles ++ held } →
      During s₀ c s (.answered r held)

theorem setBuilder_self {s : State K V L} {b : Nat} {x : Api.Builder K V}
    (h : s.builders[b]? = some x) : s.setBuilder b x = s := by
  unfold State.setBuilder
  have : s.builders.set b x = s.builders := by
    apply List.ext_getElem?
    intro j
    rw [List.getElem?_set]
    obtain ⟨hb, hx⟩ := List.getElem?_eq_some_iff.mp h
    split
    · rename_i he
      subst he
      simp [hb, hx]
    · rfl
  rw [this]

theorem setBuilder_get {s : State K V L} {b : Nat} {x y : Api.Builder K V}
    (h : s.builders[b]? = some x) : (s.setBuilder b y).builders[b]? = some y := by
  obtain ⟨hb, hx⟩ := List.getElem?_eq_some_iff.mp h
  simp [State.setBuilder, hb]

theorem setBuilder_setBuilder {s : State K V L} {b : Nat} {y z : Api.Builder K V} :
    (s.setBuilder b y).setBuilder b z = s.setBuilder b z := by
  simp [State.setBuilder]

/-- An answer has the number of the next layer in hand. -/
theorem numbered_step {s s' : State K V L} {c : Req K V L} {r : Ans K V L} (h : Step s c r s') :
    CState.numbered s.handles.length r = r := by
  cases h <;> rfl

theorem since_start {s : State K V L} {past : List (State K V L)} : since s past past.length = [s] := by
  simp [since]

/-- The first effect of a call. -/
theorem During.first {s₀ s' : State K V L} {past : List (State K V L)} {c : Req K V L} {k : Nat}
    {p : Pending K V L} (hk : k = past.length) (hin : Api.InContract s₀ c)
    (h : Effect past s₀ (.asked c k) s' p) : During s₀ c s' p := by
  cases h with
  | @once _ _ r s' held hs hh =>
    refine .answered ?_
    show Step _ _ (CState.numbered s₀.handles.length r) { s' with handles := s₀.handles ++ held }
    rw [← hh, numbered_step hs]
    exact hs
  | setHeadLate hn hg hr hv =>
    obtain ⟨⟨p, hp, hpg⟩, _⟩ := hr
    rw [hk, since_start] at hp
    cases List.mem_singleton.mp hp
    rw [hg] at hpg
    cases hpg
    exact absurd rfl hv
  | setHeadAgain hn hg hr hp hpn =>
    rw [hk, since_start] at hp
    cases List.mem_singleton.mp hp
    rw [hg] at hpn
    cases hpn
  | versionAgain hn hg hp hpn =>
    rw [hk, since_start] at hp
    cases List.mem_singleton.mp hp
    rw [hg] at hpn
    cases hpn
  | close hc hb hx => exact .closing hc hb hx
  | hide hr hp hne fr =>
    rw [hk, since_start] at hp
    cases List.mem_singleton.mp hp
    exact .rolling hr hne fr
  | @again _ _ n upto p hr hp hpr =>
    rw [hk, since_start] at hp
    cases List.mem_singleton.mp hp
    have he : settled s₀ n upto = s₀ := by
      unfold settled
      have : (fun m => if m = n then some upto else s₀.rolled m) = s₀.rolled := by
        funext m
        split
        · rename_i he; rw [he, hpr]
        · rfl
      rw [this]
    rw [he]
    refine .answered ?_
    simp only [CState.numbered, List.append_nil]
    cases hr with
    | all h1 _ => exact .rollupNothing h1 (.inr hpr)
    | upto h1 h2 h3 h4 _ => exact .rollupUptoNothing h1 h2 (.inr (.inr ⟨h4, hpr⟩)) h3
  | @readDelta b h x n cs _ hb hn hl =>
    cases hx : x.calls with
    | none => exact .applyingSkip rfl hb hn hx
    | some d =>
      have he : { x with calls := some (d ++ []) } = x := by rw [List.append_nil, ← hx]
      have := During.applyingDelta (s₀ := s₀) (e := []) rfl hb hn hx (by simpa using hl)
      rw [he, setBuilder_self hb] at this
      exact this
  | @readDiff b h x n cs _ hb hn hl =>
    cases hx : x.calls with
    | none =>
      obtain ⟨_, x', h1, h2⟩ := hin
      rw [hb] at h1
      cases h1
      exact absurd hx h2
    | some d =>
      have he : { x with calls := some (d ++ []) } = x := by rw [List.append_nil, ← hx]
      have := During.applyingDiff (s₀ := s₀) (e := []) rfl hb hn hx (by simpa using hl)
      rw [he, setBuilder_self hb] at this
      exact this

/-- The other effects of a call. -/
theorem During.next {s₀ s s' : State K V L} {past : List (State K V L)} {c : Req K V L}
    {p p' : Pending K V L} (hd : During s₀ c s p) (h : Effect past s p s' p') :
    During s₀ c s' p' := by
  cases hd with
  | @closing b x cs load hc hb hx =>
    cases h with
    | @write _ y _ _ i r held hy hi hr =>
      rw [setBuilder_get hb] at hy
      cases hy
      refine .answered ?_
      rcases hr with ⟨rfl, rfl, rfl⟩ | ⟨rfl, rfl, rfl⟩
      · rcases hc with ⟨_, hc⟩ | ⟨rfl, _⟩
        · cases hc
        · simp only [CState.numbered, List.append_nil]
          exact .commitNoLoad hb hx hi
      · rcases hc with ⟨rfl, _⟩ | ⟨_, hc⟩
        · exact .commit (x := x) hb hx hi
        · cases hc
  | rolling hr hne fr =>
    cases h
    refine .answered ?_
    simp only [CState.numbered, settled, List.append_nil]
    cases hr with
    | all h1 h2 => exact .rollup h1 h2 hne fr
    | upto h1 h2 h3 h4 h5 => exact .rollupUpto h1 h2 hne.1 h5 h4 hne.2 fr h3
  | @applyingDelta b h x n d e cs hc hb hn hx hl =>
    cases h with
    | @apply _ y c _ d' _ hy hd =>
      rw [setBuilder_get hb] at hy
      cases hy
      cases hd
      rw [setBuilder_setBuilder, List.append_assoc]
      exact .applyingDelta (x := x) hc hb hn hx (by simpa using hl)
    | applySkip hy hd =>
      rw [setBuilder_get hb] at hy
      cases hy
      cases hd
    | applied =>
      refine .answered ?_
      simp only [CState.numbered, List.append_nil] at hl ⊢
      subst hc
      exact .applyDelta hb hx hn hl
  | @applyingSkip b h x n cs hc hb hn hx =>
    cases h with
    | apply hy hd =>
      rw [hb] at hy
      cases hy
      rw [hx] at hd
      cases hd
    | applySkip hy hd => exact .applyingSkip hc hb hn hx
    | applied =>
      refine .answered ?_
      simp only [CState.numbered, List.append_nil]
      subst hc
      exact .applyDeltaCommitted hb hx hn
  | @applyingDiff b h x n d e cs hc hb hn hx hl =>
    cases h with
    | @apply _ y c _ d' _ hy hd =>
      rw [setBuilder_get hb] at hy
      cases hy
      cases hd
      rw [setBuilder_setBuilder, List.append_assoc]
      exact .applyingDiff (x := x) hc hb hn hx (by simpa using hl)
    | applied =>
      refine .answered ?_
      simp only [CState.numbered, List.append_nil] at hl ⊢
      subst hc
      exact .applyDiff hb hx hn hl
  | answered hs => cases h

/-- No call but one is under way. -/
def Alone (A : CState K V L) (t : Nat) (p : Pending K V L) : Prop :=
  A.calls t = some p ∧ ∀ u, u ≠ t → A.calls u = none

theorem Alone.acts {A : CState K V L} {t : Nat} {p p' : Pending K V L} {s : State K V L}
    {past : List (State K V L)} (h : Alone A t p) :
    Alone { now := s, past := past, calls := fun u => if u = t then some p' else A.calls u } t p' := by
  refine ⟨by simp, fun u hu => ?_⟩
  show (if u = t then _ else _) = _
  rw [if_neg hu]
  exact h.2 u hu

/-- The rest of a call that has had an effect. -/
theorem rest_of_call {t : Nat} {c : Req K V L} {r : Ans K V L} {s₀ : State K V L}
    {rest : List (Event K V L)} {Goal : Prop}
    (go : ∀ (A : CState K V L), (∀ u, A.calls u = none) → Step s₀ c r A.now → Allowed A rest → Goal) :
    ∀ (news : List Nat) (A : CState K V L) (p : Pending K V L), Alone A t p → During s₀ c A.now p →
      Allowed A (news.map (.act t) ++ .ret t r :: rest) → Goal := by
  intro news
  induction news with
  | nil =>
    intro A p hal hd h
    cases h with
    | out h => exact h.elim
    | cons hg h =>
    cases hg with
    | ret hc =>
      rw [hal.1] at hc
      cases hc
      generalize hA : A.now = s at hd h
      cases hd with
      | answered hs =>
        subst hA
        refine go _ (fun u => ?_) hs h
        show (if u = t then _ else _) = _
        split
        · rfl
        · exact hal.2 u (by assumption)
  | cons new news ih =>
    intro A p hal hd h
    cases h with
    | cons hg h =>
      cases hg with
      | skip => exact ih A p hal hd h
      | act hc _ he _ =>
        rw [hal.1] at hc
        cases hc
        exact ih _ _ hal.acts (hd.next he) h
    | out hl =>
      obtain ⟨_, hc, hno⟩ := hl
      rw [hal.1] at hc
      cases hc
      refine absurd ?_ hno
      generalize hA : A.now = s at hd
      cases hd with
      | closing => trivial
      | rolling => trivial
      | @applyingDelta _ _ _ _ _ _ cs => cases cs <;> trivial
      | @applyingSkip _ _ _ _ cs => cases cs <;> trivial
      | answered => trivial
      | @applyingDiff _ _ _ _ _ _ cs _ hb =>
        cases cs with
        | nil => trivial
        | cons _ _ =>
          exact ⟨_, by rw [hA]; exact setBuilder_get hb, by simp⟩

/-- The whole of a call. -/
theorem whole_call {t : Nat} {c : Req K V L} {r : Ans K V L} {rest : List (Event K V L)}
    {Goal : Prop} (s₀ : State K V L)
    (go : ∀ (A : CState K V L), (∀ u, A.calls u = none) → Api.InContract s₀ c →
      Step s₀ c r A.now → Allowed A rest → Goal) (out : ¬ Api.InContract s₀ c → Goal) :
    ∀ (news : List Nat) (A : CState K V L), A.now = s₀ → Alone A t (.asked c A.past.length) →
      Allowed A (news.map (.act t) ++ .ret t r :: rest) → Goal := by
  intro news
  induction news with
  | nil =>
    intro A hs hal h
    cases h with
    | out h => exact h.elim
    | cons hg h =>
      cases hg with
      | ret hc => rw [hal.1] at hc; cases hc
  | cons new news ih =>
    intro A hs hal h
    subst hs
    cases h with
    | cons hg h =>
      cases hg with
      | skip => exact ih A rfl hal h
      | act hc hco he _ =>
        rw [hal.1] at hc
        cases hc
        exact rest_of_call (fun A' h1 h2 h3 => go A' h1 hco.1 h2 h3) _ _ _ hal.acts
          (.first rfl hco.1 he) h
    | out hl =>
      obtain ⟨_, hc, hno⟩ := hl
      rw [hal.1] at hc
      cases hc
      refine out fun hin => hno ⟨hin, ?_⟩
      intro n _ u b cs load x hu
      by_cases he : u = t
      · subst he; rw [hal.1] at hu; cases hu
      · rw [hal.2 u he] at hu; cases hu

theorem serial_explains (calls : List (Nat × Req K V L × Ans K V L × List Nat)) :
    ∀ A : CState K V L, (∀ u, A.calls u = none) → Allowed A (serial calls) →
      Explains A.now (calls.map fun x => (x.2.1, x.2.2.1)) := by
  induction calls with
  | nil => intro A _ _; exact .nil
  | cons x rest ih =>
    intro A hA h
    obtain ⟨t, c, r, news⟩ := x
    cases h with
    | out h => exact h.elim
    | cons hg h =>
    cases hg with
    | inv _ =>
      refine whole_call (t := t) (c := c) (r := r) (rest := serial rest) A.now ?_ ?_ news
        { A with calls := fun u => if u = t then some (.asked c A.past.length) else A.calls u } rfl
        ⟨?_, ?_⟩ h
      · intro A' h1 h2 h3 h4
        exact .step h2 h3 (ih A' h1 h4)
      · intro hno
        exact .out hno
      · simp
      · intro u hu
        show (if u = t then _ else _) = _
        rw [if_neg hu]
        exact hA u

end Verif.Conc
