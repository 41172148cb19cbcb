import Verif.Model.Life
import Verif.Lemmas.ConcRuns
import Verif.Lemmas.ConcKept

/-!
One process after the other on a store: how the model and the specification go on when a process
opens the store, and what stays true in the specification.
-/

namespace Verif.Conc

open Spec SimpleBuilder Store Api

set_option linter.unusedSectionVars false

section Model

variable {K V L : Type} [LinearOrder K] [LinearOrder V] [DecidableEq L]
  {M N : Shop K V L} {A : CState K V L} {w : World K V}

/-- The names of builders in the model and in the specification. -/
theorem builder_named {log : History (VTriple K V)} {xs : List (HeldBuilder K V)}
    {ys : List (Builder K V)} (h : List.Forall₂ (BuilderSim w log) xs ys) {y : Builder K V}
    (hy : y ∈ ys) : ∃ x ∈ xs, y.name = x.name := by
  induction h with
  | nil => cases hy
  | cons h1 _ ih =>
    rcases List.mem_cons.1 hy with rfl | hy
    · exact ⟨_, List.mem_cons_self .., h1.name⟩
    · obtain ⟨x, h2, h3⟩ := ih hy
      exact ⟨x, List.mem_cons_of_mem _ h2, h3⟩

/-- Another process opens the store. -/
theorem CSim.opened (h : CSim M A w) {lost : List Name} (hl : M.Leaves lost) :
    ∃ s' w', Reopened A.now s' ∧ CSim (M.opened lost) { now := s' } w' := by
  refine ⟨{ A.now with handles := [], builders := [], lost := lost },
    { w with cache := noCache, past := w.seen }, ⟨lost, rfl, ?_, ?_, ?_⟩, ?_⟩
  · rw [h.sim.lost]; exact hl.old
  · intro y hy hn hd
    obtain ⟨x, h1, h2⟩ := builder_named h.sim.builders hy
    rw [h2]
    refine hl.builders x h1 ?_
    rw [← h.sim.store, h.sim.layers.unknown, ← h2]
    exact ⟨hn, hd⟩
  · intro n hn
    rw [h.sim.lost]
    refine (hl.only n hn).imp_right fun h1 => ?_
    rw [← h.sim.store] at h1
    exact h.sim.layers.unknown.1 h1
  · have hrun : World.Run true { w with cache := noCache, past := w.seen } :=
      .step h.sim.layers.run (.evict (by intro n l h; cases h))
    exact
      { sim :=
          { store := h.sim.store
            cache := rfl
            layers := h.sim.layers.frame hrun (fun _ => rfl) rfl
            handles := .nil
            builders := .nil
            unborn := by intro y hy; cases hy
            distinct := List.nodup_nil
            labels := h.sim.labels
            keys := h.sim.keys
            heads := h.sim.heads
            lost := rfl }
        loaded := by intro l hl; cases hl
        seen := by
          change List.Sublist [View.mk M.session.store noCache] (⟨w.store, noCache⟩ :: w.seen)
          rw [h.sim.store]
          exact .cons_cons _ (List.nil_sublist _)
        top := ⟨[], rfl⟩
        calls := fun _ => .none
        apart := by intro t u b cs load cs' load' h; cases h
        began := by intro t c k h; cases h }

/-- What happens in one process after the other is as specified. -/
theorem lives_allowed {evss : List (List (Conc.Event K V L))} (hl : Lives M evss) :
    ∀ {A : CState K V L} {w : World K V}, CSim M A w → LivesAllowed A evss := by
  induction hl with
  | last h => intro A w hc; exact .last (allowed h hc)
  | stop h1 h2 _ ih =>
    intro A w hc
    rcases kept h1 hc with ⟨B, w', h3, h4⟩ | h3
    · obtain ⟨s', w'', h5, h6⟩ := h4.opened h2
      exact .stop h3 h5 (ih h6)
    · exact .out h3

theorem lives_kept : ∀ (before : List (List (Conc.Event K V L))) (evs : List (Conc.Event K V L))
    {M : Shop K V L} {s : State K V L} {w : World K V}, Lives M (before ++ [evs]) →
    CSim M { now := s } w → (∃ s' B, LivesKept s before s' ∧ Kept { now := s' } evs B) ∨
      ∃ pre bad post s', before ++ [evs] = pre ++ bad :: post ∧ LivesKept s pre s' ∧
        Left { now := s' } bad
  | [], evs, M, s, w, h, hc => by
    cases h with
    | last h =>
      rcases kept h hc with ⟨B, _, h1, _⟩ | h1
      · exact .inl ⟨s, B, .nil, h1⟩
      · exact .inr ⟨[], evs, [], s, rfl, .nil, h1⟩
    | stop h _ _ =>
      rcases kept h hc with ⟨B, _, h1, _⟩ | h1
      · exact .inl ⟨s, B, .nil, h1⟩
      · exact .inr ⟨[], evs, [], s, rfl, .nil, h1⟩
  | e :: before, evs, M, s, w, h, hc => by
    generalize hl : e :: before ++ [evs] = evss at h
    cases h with
    | last h => simp at hl
    | stop h h2 h3 =>
      cases hl
      rcases kept h hc with ⟨B, w', h4, h5⟩ | h4
      · obtain ⟨s1, w'', h6, h7⟩ := h5.opened h2
        rcases lives_kept before evs h3 h7 with ⟨s', B', h8, h9⟩ | ⟨pre, bad, post, s', h8, h9, h10⟩
        · exact .inl ⟨s', B', .stop h4 h6 h8, h9⟩
        · exact .inr ⟨e :: pre, bad, post, s', congrArg (e :: ·) h8,
            .stop h4 h6 h9, h10⟩
      · exact .inr ⟨[], e, before ++ [evs], s, rfl, .nil, h4⟩

end Model

section Spec

variable {K V L : Type} [DecidableEq L]

theorem Reopened.wf {s s' : State K V L} (h : Reopened s s') (hw : Wf s) : Wf s' := by
  obtain ⟨lost, rfl, _⟩ := h
  exact
    { names := List.nodup_nil
      unborn := by intro y hy; cases hy
      handles := by intro n hn; cases hn
      heads := hw.heads
      parents := hw.parents
      on := by intro y hy; cases hy }

theorem Wf.alone {s : State K V L} (h : Wf s) : CWf ({ now := s } : CState K V L) :=
  { now := h
    closing := by intro t b cs load h; cases h
    apart := by intro t u b cs load cs' load' h; cases h
    held := by intro t r held h; cases h }

theorem CWf.kept {A B : CState K V L} {evs : List (Conc.Event K V L)} (hk : Kept A evs B) :
    CWf A → CWf B := by
  induction hk with
  | nil => exact id
  | cons hg _ ih => exact fun h => ih (h.goes hg)

/-- The layers that were made stay, with their triples and their parents. -/
structure Stays (s s' : State K V L) : Prop where
  known : ∀ n, s.log.known n → s'.log.known n
  triples : ∀ n, s.log.known n → s'.log.triples n = s.log.triples n
  parent : ∀ n, s.log.known n → s'.log.parent n = s.log.parent n
  ids : ∀ n, s.log.known n → s'.ids n = s.ids n

theorem Stays.refl {s : State K V L} : Stays s s :=
  ⟨fun _ h => h, fun _ _ => rfl, fun _ _ => rfl, fun _ _ => rfl⟩

theorem Stays.trans {s s' s'' : State K V L} (h : Stays s s') (h' : Stays s' s'') : Stays s s'' :=
  { known := fun n hn => h'.known n (h.known n hn)
    triples := fun n hn => (h'.triples n (h.known n hn)).trans (h.triples n hn)
    parent := fun n hn => (h'.parent n (h.known n hn)).trans (h.parent n hn)
    ids := fun n hn => (h'.ids n (h.known n hn)).trans (h.ids n hn) }

theorem Grew.stays {exc : Nat → Prop} {s s' : State K V L} (h : Grew exc s s') : Stays s s' :=
  { known := fun _ hn => h.known hn
    triples := fun _ hn => h.triples hn
    parent := fun _ hn => h.parent hn
    ids := fun _ hn => h.ids _ hn }

theorem Kept.stays {A B : CState K V L} {evs : List (Conc.Event K V L)} (hk : Kept A evs B) :
    CWf A → Stays A.now B.now := by
  induction hk with
  | nil => exact fun _ => .refl
  | cons hg _ ih =>
    intro h
    obtain ⟨exc, h1⟩ := h.grewGoes hg
    exact h1.stays.trans (ih (h.goes hg))

theorem Reopened.stays {s s' : State K V L} (h : Reopened s s') : Stays s s' := by
  obtain ⟨lost, rfl, _⟩ := h
  exact ⟨fun _ h => h, fun _ _ => rfl, fun _ _ => rfl, fun _ _ => rfl⟩

theorem LivesKept.stays {s s' : State K V L} {evss : List (List (Conc.Event K V L))}
    (h : LivesKept s evss s') : Wf s → Stays s s' ∧ Wf s' := by
  induction h with
  | nil => exact fun h => ⟨.refl, h⟩
  | stop h1 h2 _ ih =>
    intro hw
    have h3 := CWf.kept h1 hw.alone
    obtain ⟨h4, h5⟩ := ih (h2.wf h3.now)
    exact ⟨((h1.stays hw.alone).trans h2.stays).trans h4, h5⟩

theorem LivesKept.append {s s' : State K V L} {b : List (List (Conc.Event K V L))} :
    ∀ {a : List (List (Conc.Event K V L))}, LivesKept s (a ++ b) s' →
      ∃ m, LivesKept s a m ∧ LivesKept m b s' := by
  intro a
  induction a generalizing s with
  | nil => exact fun h => ⟨s, .nil, h⟩
  | cons e a ih =>
    intro h
    cases h with
    | stop h1 h2 h3 =>
      obtain ⟨m, h4, h5⟩ := ih h3
      exact ⟨m, .stop h1 h2 h4, h5⟩

/-- What the answers about names and triples mean. -/
theorem layerName_right {s s' : State K V L} {i : Nat} {r : Ans K V L}
    (hs : Step s (.layerName i) r s') : ∃ n, r = .name n ∧ s.handles[i]? = some n := by
  cases hs with
  | layerName h => exact ⟨_, rfl, h⟩
  | rollupUptoNothing _ _ _ hc => rcases hc with hc | hc <;> cases hc
  | rollupUptoWrong _ _ _ _ _ hc => rcases hc with hc | hc <;> cases hc
  | rollupUpto _ _ _ _ _ _ _ hc => rcases hc with hc | hc <;> cases hc
  | commitTwice _ _ hc => rcases hc with hc | hc <;> cases hc

theorem name_right {s s' : State K V L} {i n : Nat} (hs : Step s (.layerName i) (.name n) s') :
    s.handles[i]? = some n := by
  obtain ⟨m, h1, h2⟩ := layerName_right hs
  cases h1
  exact h2

theorem has_right {s s' : State K V L} {i : Nat} {t : VTriple K V} {r : Ans K V L}
    (hs : Step s (.query i (.has t)) r s') : ∃ n b, s.handles[i]? = some n ∧
      r = .answer (.flag b) ∧ (b = true ↔ s.log.triples n t) := by
  cases hs with
  | query hn hr =>
    rename_i a
    match a, hr with
    | .flag b, hr => exact ⟨_, b, hn, rfl, hr⟩
  | rollupUptoNothing _ _ _ hc => rcases hc with hc | hc <;> cases hc
  | rollupUptoWrong _ _ _ _ _ hc => rcases hc with hc | hc <;> cases hc
  | rollupUpto _ _ _ _ _ _ _ hc => rcases hc with hc | hc <;> cases hc
  | commitTwice _ _ hc => rcases hc with hc | hc <;> cases hc

/-- The layers in hand keep their numbers while a process lives. -/
theorem Kept.handles {A B : CState K V L} {evs : List (Conc.Event K V L)} (hk : Kept A evs B) :
    CWf A → ∀ {i n : Nat}, A.now.handles[i]? = some n → B.now.handles[i]? = some n := by
  induction hk with
  | nil => exact fun _ _ _ h => h
  | cons hg _ ih =>
    intro h i n hi
    obtain ⟨exc, h1⟩ := h.grewGoes hg
    exact ih (h.goes hg) (h1.handle hi)

/-! ### Heads -/

variable {l : L} {h n : Nat}

/-- How a call may change a graph. -/
theorem step_graph {s s' : State K V L} {c : Req K V L} {r : Ans K V L} (hs : Step s c r s')
    (hh : ∀ m, s.handles[h]? = some m → m = n) (hc : changes l c → setsTo l h c) :
    (s'.graphs l = s.graphs l ∨ ∃ v, s'.graphs l = some (some n, v)) ∧
      (setsTo l h c → succeeded r → ∃ v, s'.graphs l = some (some n, v)) := by
  have put : ∀ {k : L} {i m v : Nat}, (k = l → k = l ∧ i = h) → s.handles[i]? = some m →
      ((s.setGraph k (some (some m, v))).graphs l = s.graphs l ∨
        ∃ v', (s.setGraph k (some (some m, v))).graphs l = some (some n, v')) ∧
      (k = l ∧ i = h → ∃ v', (s.setGraph k (some (some m, v))).graphs l = some (some n, v')) := by
    intro k i m v h1 h2
    have now : k = l ∧ i = h → (s.setGraph k (some (some m, v))).graphs l = some (some n, v) := by
      rintro ⟨rfl, rfl⟩
      have := hh m h2
      subst this
      simp [State.setGraph]
    by_cases hk : k = l
    · exact ⟨.inr ⟨v, now (h1 hk)⟩, fun h3 => ⟨v, now h3⟩⟩
    · exact ⟨.inl (by simp [State.setGraph, Ne.symm hk]), fun h3 => (hk h3.1).elim⟩
  have other : ∀ {k : L} {x : Option (Option Nat × Nat)}, k ≠ l →
      (s.setGraph k x).graphs l = s.graphs l := by
    intro k x hk
    simp [State.setGraph, Ne.symm hk]
  cases hs with
  | setHead h1 h2 _ => exact ⟨(put hc h2).1, fun h3 _ => (put hc h2).2 h3⟩
  | forceSetHead h1 h2 => exact ⟨(put hc h2).1, fun h3 _ => (put hc h2).2 h3⟩
  | forceSetHeadVersion h1 h2 => exact ⟨(put hc h2).1, fun h3 _ => (put hc h2).2 h3⟩
  | createGraph _ => exact ⟨.inl (other fun e => (hc e).elim), fun h1 => h1.elim⟩
  | deleteGraph _ => exact ⟨.inl (other fun e => (hc e).elim), fun h1 => h1.elim⟩
  | dropGraph => exact ⟨.inl (other fun e => (hc e).elim), fun h1 => h1.elim⟩
  | rollupUptoNothing _ _ _ hc => exact ⟨.inl rfl, by rcases hc with rfl | rfl <;> exact fun h => h.elim⟩
  | rollupUptoWrong _ _ _ _ _ hc => exact ⟨.inl rfl, by rcases hc with rfl | rfl <;> exact fun h => h.elim⟩
  | rollupUpto _ _ _ _ _ _ _ hc => exact ⟨.inl rfl, by rcases hc with rfl | rfl <;> exact fun h => h.elim⟩
  | commitTwice _ _ hc => exact ⟨.inl rfl, by rcases hc with rfl | rfl <;> exact fun h => h.elim⟩
  | _ => exact ⟨.inl rfl, fun h1 h2 => by first | exact h1.elim | exact h2.elim⟩

theorem effect_graph {past : List (State K V L)} {s s' : State K V L} {p p' : Conc.Pending K V L}
    (he : Effect past s p s' p') (hh : ∀ m, s.handles[h]? = some m → m = n)
    (hc : ∀ c k, p = .asked c k → changes l c → setsTo l h c) :
    (s'.graphs l = s.graphs l ∨ ∃ v, s'.graphs l = some (some n, v)) ∧
      ∀ c k, p = .asked c k → setsTo l h c → ∃ r held, p' = .answered r held ∧
        (succeeded r → ∃ v, s'.graphs l = some (some n, v)) := by
  have rolls : ∀ {c m upto}, Rolls s c m upto → ¬ setsTo l h c := by
    intro c m upto hr hl
    cases hr with
    | all => exact hl
    | upto _ _ hc => rcases hc with rfl | rfl <;> exact hl
  cases he with
  | @once c k r s1 held hs hh' =>
    obtain ⟨h1, h2⟩ := step_graph (n := n) hs hh (hc c k rfl)
    refine ⟨h1, ?_⟩
    intro c' k' e hset
    cases e
    exact ⟨r, held, rfl, h2 hset⟩
  | setHeadLate =>
    exact ⟨.inl rfl, fun c k e _ => ⟨_, _, rfl, fun h => h.elim⟩⟩
  | @setHeadAgain k' i m _ o o' v p h1 h2 h3 h4 h5 =>
    obtain ⟨g1, g2⟩ := step_graph (l := l) (h := h) (n := n) (Step.forceSetHead h2 h1) hh
      (fun e => hc (.setHead k' i) _ rfl e)
    exact ⟨g1, fun c k e hset => ⟨_, _, rfl, fun _ => g2 (by cases e; exact hset) trivial⟩⟩
  | versionAgain => exact ⟨.inl rfl, fun c k e _ => ⟨_, _, rfl, fun h => h.elim⟩⟩
  | close hcl =>
    refine ⟨.inl rfl, fun c k e hset => ?_⟩
    cases e
    rcases hcl with ⟨rfl, _⟩ | ⟨rfl, _⟩ <;> exact hset.elim
  | write => exact ⟨.inl rfl, fun c k e => by cases e⟩
  | hide hr => exact ⟨.inl rfl, fun c k e hset => by cases e; exact (rolls hr hset).elim⟩
  | settle => exact ⟨.inl rfl, fun c k e => by cases e⟩
  | again hr => exact ⟨.inl rfl, fun c k e hset => by cases e; exact (rolls hr hset).elim⟩
  | readDelta => exact ⟨.inl rfl, fun c k e hset => by cases e; exact hset.elim⟩
  | readDiff => exact ⟨.inl rfl, fun c k e hset => by cases e; exact hset.elim⟩
  | apply => exact ⟨.inl rfl, fun c k e => by cases e⟩
  | applySkip => exact ⟨.inl rfl, fun c k e => by cases e⟩
  | applied => exact ⟨.inl rfl, fun c k e => by cases e⟩

/-- A graph changes only by calls that may change it. -/
theorem effect_quiet {past : List (State K V L)} {s s' : State K V L} {p p' : Conc.Pending K V L}
    (he : Effect past s p s' p') (hc : ∀ c k, p = .asked c k → ¬ changes l c) :
    s'.graphs l = s.graphs l := by
  have one : ∀ m : Nat, s'.graphs l = s.graphs l ∨ ∃ v, s'.graphs l = some (some m, v) := fun m =>
    (effect_graph (h := s.handles.length) (n := m) he (by intro m hm; simp at hm)
      (fun c k e hch => (hc c k e hch).elim)).1
  rcases one 0 with h0 | ⟨v, h0⟩
  · exact h0
  · rcases one 1 with h1 | ⟨v', h1⟩
    · exact h1
    · rw [h0] at h1; cases h1

/-- A call under way when all calls that change the graph set its head to the same layer. -/
def Setting (l : L) (h n : Nat) (now : State K V L) (cur : Option (Req K V L)) :
    Option (Conc.Pending K V L) → Prop
  | none => True
  | some (.asked c _) => cur = some c ∧ (changes l c → setsTo l h c)
  | some (.answered r _) => ∀ c, cur = some c → setsTo l h c → succeeded r →
      ∃ v, now.graphs l = some (some n, v)
  | some _ => ∀ c, cur = some c → ¬ setsTo l h c

theorem Setting.then {s s' : State K V L} {cur : Option (Req K V L)}
    {p : Option (Conc.Pending K V L)} (hp : Setting l h n s cur p)
    (hg : s'.graphs l = s.graphs l ∨ ∃ v, s'.graphs l = some (some n, v)) :
    Setting l h n s' cur p := by
  cases p with
  | none => trivial
  | some p =>
    cases p with
    | answered r held =>
      intro c h1 h2 h3
      rcases hg with hg | hg
      · rw [hg]; exact hp c h1 h2 h3
      · exact hg
    | _ => exact hp

theorem Setting.effect {past : List (State K V L)} {s s' : State K V L} {p p' : Conc.Pending K V L}
    {cur : Option (Req K V L)} (hp : Setting l h n s cur (some p)) (he : Effect past s p s' p')
    (hh : ∀ m, s.handles[h]? = some m → m = n) : Setting l h n s' cur (some p') := by
  have hc : ∀ c k, p = .asked c k → changes l c → setsTo l h c := by
    rintro c k rfl
    exact hp.2
  obtain ⟨h1, h2⟩ := effect_graph he hh hc
  cases p with
  | asked c k =>
    by_cases hset : setsTo l h c
    · obtain ⟨r, held, rfl, h3⟩ := h2 c k rfl hset
      exact fun _ _ _ hr => h3 hr
    · have hno : ∀ c', cur = some c' → ¬ setsTo l h c' := by
        intro c' hc'
        rw [hp.1] at hc'
        cases hc'
        exact hset
      cases p' with
      | asked c' k' => cases he
      | answered r held => exact fun c' hc' hset' => (hno c' hc' hset').elim
      | _ => exact hno
  | answered r held => cases he
  | _ =>
    cases p' with
    | asked c' k' => cases he
    | answered r held => exact fun c' hc' hset' => (hp c' hc' hset').elim
    | _ => exact hp

/-- If all calls that change a graph set its head to the same layer, then the graph is as before or
has this head, and it has this head if one of these calls has succeeded. -/
theorem pairs_set {A B : CState K V L} {evs : List (Conc.Event K V L)} (hk : Kept A evs B)
    (hn : ∀ m, B.now.handles[h]? = some m → m = n) :
    ∀ {cur : Nat → Option (Req K V L)}, CWf A →
      (∀ t c, .inv t c ∈ evs → changes l c → setsTo l h c) →
      (∀ t, Setting l h n A.now (cur t) (A.calls t)) →
      (B.now.graphs l = A.now.graphs l ∨ ∃ v, B.now.graphs l = some (some n, v)) ∧
      ∀ c r, (c, r) ∈ pairs cur evs → setsTo l h c → succeeded r →
        ∃ v, B.now.graphs l = some (some n, v) := by
  induction hk with
  | nil => intro cur _ _ _; exact ⟨.inl rfl, fun c r hm => by cases hm⟩
  | @cons A e A' rest B hg hk ih =>
    intro cur hw hev ht
    have hw' := hw.goes hg
    have hev' : ∀ t c, .inv t c ∈ rest → changes l c → setsTo l h c := fun t c hm =>
      hev t c (List.mem_cons_of_mem _ hm)
    have hA : ∀ m, A.now.handles[h]? = some m → m = n := fun m hm =>
      hn m ((Kept.cons hg hk).handles hw hm)
    cases hg with
    | @inv t c0 h0 =>
      refine ih hn (cur := fun u => if u = t then some c0 else cur u) hw' hev' ?_
      intro u
      by_cases hu : u = t
      · subst hu
        simp only [if_true]
        exact ⟨rfl, hev u c0 (List.mem_cons_self ..)⟩
      · simp only [if_neg hu]
        exact ht u
    | skip => exact ih hn hw' hev' ht
    | @act t new p s' p' hp _ he _ =>
      have htt := ht t
      rw [hp] at htt
      have hgr := (effect_graph he hA (by rintro c k rfl; exact htt.2)).1
      obtain ⟨h1, h2⟩ := ih hn (cur := cur) hw' hev' (by
        intro u
        by_cases hu : u = t
        · subst hu
          simp only [if_true]
          exact htt.effect he hA
        · simp only [if_neg hu]
          exact (ht u).then hgr)
      refine ⟨?_, h2⟩
      rcases h1 with h1 | h1
      · change B.now.graphs l = s'.graphs l at h1
        rw [h1]
        exact hgr
      · exact .inr h1
    | @ret t r0 held hp =>
      have htt := ht t
      rw [hp] at htt
      obtain ⟨h1, h2⟩ := ih hn (cur := cur) hw' hev' (by
        intro u
        by_cases hu : u = t
        · simp only [if_pos hu]; trivial
        · simp only [if_neg hu]
          exact (ht u).then (.inl rfl))
      refine ⟨h1, ?_⟩
      intro c r hm hs hr
      rcases List.mem_append.1 hm with hm | hm
      · obtain ⟨c1, hc1, he⟩ := List.mem_map.1 hm
        have hc1 : cur t = some c1 := by simpa using hc1
        cases he
        obtain ⟨v, hv⟩ := htt c hc1 hs (by
          cases r0 with
          | head o v => cases o <;> exact hr
          | _ => exact hr)
        rcases h1 with h1 | h1
        · exact ⟨v, h1.trans hv⟩
        · exact h1
      · exact h2 c r hm hs hr

theorem Kept.quiet {s : State K V L} {B : CState K V L} {evs : List (Conc.Event K V L)}
    (hk : Kept { now := s } evs B) (hw : Wf s) (hq : Quiet l evs) :
    B.now.graphs l = s.graphs l := by
  have one : ∀ m : Nat, B.now.graphs l = s.graphs l ∨ ∃ v, B.now.graphs l = some (some m, v) :=
    fun m => (pairs_set (h := B.now.handles.length) (n := m) hk (by intro m hm; simp at hm)
      (cur := fun _ => none) hw.alone (fun t c hm hc => (hq t c hm hc).elim) (fun _ => trivial)).1
  rcases one 0 with h0 | ⟨v, h0⟩
  · exact h0
  · rcases one 1 with h1 | ⟨v', h1⟩
    · exact h1
    · rw [h0] at h1; cases h1

theorem LivesKept.quiet {s s' : State K V L} {evss : List (List (Conc.Event K V L))}
    (hl : LivesKept s evss s') : Wf s → (∀ evs ∈ evss, Quiet l evs) → s'.graphs l = s.graphs l := by
  induction hl with
  | nil => exact fun _ _ => rfl
  | stop h1 h2 _ ih =>
    intro hw hq
    have h3 := CWf.kept h1 hw.alone
    rw [ih (h2.wf h3.now) fun evs he => hq evs (List.mem_cons_of_mem _ he)]
    obtain ⟨lost, rfl, _⟩ := h2
    exact h1.quiet hw (hq _ (List.mem_cons_self ..))

/-! ### Calls that only read -/

/-- A call under way when the call `c0` has answers `Q`. -/
def Reading (ok : Req K V L → Prop) (c0 : Req K V L) (Q : Ans K V L → List Nat → Prop)
    (cur : Option (Req K V L)) : Option (Conc.Pending K V L) → Prop
  | none => True
  | some (.asked c _) => cur = some c ∧ ok c
  | some (.answered r held) => cur = some c0 → Q r held
  | some _ => cur ≠ some c0

/-- If something is true of all states, and whenever it is true then the answer to `c0` is right,
then all answers to `c0` were right. -/
theorem pairs_once {I : State K V L → Prop} {ok : Req K V L → Prop} {c0 : Req K V L}
    {Q : Ans K V L → List Nat → Prop}
    (hI : ∀ {A A' : CState K V L} {e}, CWf A → (∀ t c k, A.calls t = some (.asked c k) → ok c) →
      Goes A e A' → I A.now → I A'.now)
    (hQ : ∀ {past s k s' p'}, I s → Effect past s (.asked c0 k) s' p' →
      ∃ r held, p' = .answered r held ∧ Q r held)
    {A B : CState K V L} {evs : List (Conc.Event K V L)} (hk : Kept A evs B) :
    ∀ {cur : Nat → Option (Req K V L)}, CWf A → (∀ t c, .inv t c ∈ evs → ok c) → I A.now →
      (∀ t, Reading ok c0 Q (cur t) (A.calls t)) → ∀ r, (c0, r) ∈ pairs cur evs →
      ∃ r0 held i, Q r0 held ∧ r = CState.numbered i r0 ∧
        ∀ (j : Nat) (m : Nat), held[j]? = some m → B.now.handles[i + j]? = some m := by
  induction hk with
  | nil => intro cur _ _ _ _ r hm; cases hm
  | @cons A e A' rest B hg hk ih =>
    intro cur hw hev hi ht r hm
    have hw' := hw.goes hg
    have hev' : ∀ t c, .inv t c ∈ rest → ok c := fun t c hm => hev t c (List.mem_cons_of_mem _ hm)
    have hok : ∀ t c k, A.calls t = some (.asked c k) → ok c := by
      intro t c k hc
      have := ht t
      rw [hc] at this
      exact this.2
    have hi' := hI hw hok hg hi
    cases hg with
    | @inv t c1 h0 =>
      refine ih (cur := fun u => if u = t then some c1 else cur u) hw' hev' hi' ?_ r hm
      intro u
      by_cases hu : u = t
      · subst hu
        simp only [if_true]
        exact ⟨rfl, hev u c1 (List.mem_cons_self ..)⟩
      · simp only [if_neg hu]
        exact ht u
    | skip => exact ih hw' hev' hi' ht r hm
    | @act t new p s' p' hp _ he _ =>
      refine ih (cur := cur) hw' hev' hi' ?_ r hm
      intro u
      by_cases hu : u = t
      · subst hu
        simp only [if_true]
        have htt := ht u
        rw [hp] at htt
        have other : cur u ≠ some c0 → Reading ok c0 Q (cur u) (some p') := by
          intro hne
          cases p' with
          | asked c' k' => cases he
          | answered r held => exact fun h => (hne h).elim
          | _ => exact hne
        cases p with
        | asked c k =>
          by_cases hc : c = c0
          · subst hc
            obtain ⟨r1, held, rfl, h1⟩ := hQ hi he
            exact fun _ => h1
          · refine other ?_
            rw [htt.1]
            exact fun h => hc (Option.some.inj h)
        | answered r held => cases he
        | _ => exact other htt
      · simp only [if_neg hu]
        exact ht u
    | @ret t r0 held hp =>
      have htt := ht t
      rw [hp] at htt
      rcases List.mem_append.1 hm with hm | hm
      · obtain ⟨c1, hc1, he⟩ := List.mem_map.1 hm
        have hc1 : cur t = some c1 := by simpa using hc1
        cases he
        refine ⟨r0, held, A.now.handles.length, htt hc1, rfl, fun j m hj => ?_⟩
        refine hk.handles hw' ?_
        change (A.now.handles ++ held)[A.now.handles.length + j]? = some m
        rw [List.getElem?_append_right (Nat.le_add_right ..), Nat.add_sub_cancel_left]
        exact hj
      · refine ih (cur := cur) hw' hev' hi' ?_ r hm
        intro u
        by_cases hu : u = t
        · simp only [if_pos hu]; trivial
        · simp only [if_neg hu]
          exact ht u

/-- A layer that exists is found. -/
theorem pairs_getLayer {s : State K V L} {B : CState K V L} {evs : List (Conc.Event K V L)}
    (hw : Wf s) (hk : Kept { now := s } evs B) (hn : s.log.known n) {r : Ans K V L}
    (hr : (.getLayer n, r) ∈ pairs (fun _ => none) evs) :
    ∃ j, r = .layer j ∧ B.now.handles[j]? = some n := by
  obtain ⟨r0, held, i, ⟨⟨k, rfl⟩, rfl⟩, h2, h3⟩ := pairs_once (I := fun s => s.log.known n)
    (ok := fun _ => True) (c0 := .getLayer n) (Q := fun r held => (∃ k, r = .layer k) ∧ held = [n])
    (fun hw _ hg hi => by
      obtain ⟨exc, h⟩ := hw.grewGoes hg
      exact h.known hi)
    (fun {past s k s' p'} hi he => by
      cases he with
      | once hs hh =>
        cases hs with
        | getLayer _ =>
          refine ⟨_, _, rfl, ⟨_, rfl⟩, ?_⟩
          exact (List.append_cancel_left (hh : s.handles ++ [n] = _)).symm
        | getLayerAbsent h => exact (h hi).elim
        | rollupUptoNothing _ _ _ hc => rcases hc with hc | hc <;> cases hc
        | rollupUptoWrong _ _ _ _ _ hc => rcases hc with hc | hc <;> cases hc
        | rollupUpto _ _ _ _ _ _ _ hc => rcases hc with hc | hc <;> cases hc
        | commitTwice _ _ hc => rcases hc with hc | hc <;> cases hc
      | close hc => rcases hc with ⟨hc, _⟩ | ⟨hc, _⟩ <;> cases hc
      | hide hr =>
        cases hr with
        | upto _ _ hc => rcases hc with hc | hc <;> cases hc
      | again hr =>
        cases hr with
        | upto _ _ hc => rcases hc with hc | hc <;> cases hc)
    hk hw.alone (fun _ _ _ => trivial) hn (fun _ => trivial) r hr
  exact ⟨i, h2, h3 0 n rfl⟩

/-- The head of a graph that is not changed is found. -/
theorem pairs_head {s : State K V L} {B : CState K V L} {evs : List (Conc.Event K V L)} {v : Nat}
    (hw : Wf s) (hk : Kept { now := s } evs B) (hq : Quiet l evs)
    (hn : s.graphs l = some (some n, v)) {r : Ans K V L}
    (hr : (.head l, r) ∈ pairs (fun _ => none) evs) :
    ∃ j, r = .head (some j) v ∧ B.now.handles[j]? = some n := by
  obtain ⟨r0, held, i, ⟨⟨k, rfl⟩, rfl⟩, h2, h3⟩ := pairs_once
    (I := fun s => s.graphs l = some (some n, v))
    (ok := fun c => ¬ changes l c) (c0 := .head l)
    (Q := fun r held => (∃ k, r = .head (some k) v) ∧ held = [n])
    (fun {A A' e} hw hok hg hi => by
      cases hg with
      | inv => exact hi
      | skip => exact hi
      | ret => exact hi
      | @act t new p s' p' hp _ he _ =>
        exact (effect_quiet he (by rintro c k rfl; exact hok t c k hp)).trans hi)
    (fun {past s k s' p'} hi he => by
      cases he with
      | once hs hh =>
        cases hs with
        | headMissing h => rw [hi] at h; cases h
        | headNone h => rw [hi] at h; cases h
        | head h =>
          rw [hi] at h
          cases h
          refine ⟨_, _, rfl, ⟨_, rfl⟩, ?_⟩
          exact (List.append_cancel_left (hh : s.handles ++ [n] = _)).symm
        | rollupUptoNothing _ _ _ hc => rcases hc with hc | hc <;> cases hc
        | rollupUptoWrong _ _ _ _ _ hc => rcases hc with hc | hc <;> cases hc
        | rollupUpto _ _ _ _ _ _ _ hc => rcases hc with hc | hc <;> cases hc
        | commitTwice _ _ hc => rcases hc with hc | hc <;> cases hc
      | close hc => rcases hc with ⟨hc, _⟩ | ⟨hc, _⟩ <;> cases hc
      | hide hr =>
        cases hr with
        | upto _ _ hc => rcases hc with hc | hc <;> cases hc
      | again hr =>
        cases hr with
        | upto _ _ hc => rcases hc with hc | hc <;> cases hc)
    hk hw.alone hq hn (fun _ => trivial) r hr
  exact ⟨i, h2, h3 0 n rfl⟩

end Spec

end Verif.Conc
