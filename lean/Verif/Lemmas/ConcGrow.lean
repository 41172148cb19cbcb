import Verif.ConcSpec
import Verif.Lemmas.ApiSim

/-!
What the effects of calls leave as it is.
-/

set_option linter.unusedSectionVars false

namespace Verif.Conc

open Spec Api

variable {K V L : Type} [DecidableEq L]

/-- The head of a graph changes only so: the graph is deleted or created, or the version is one
more. -/
def GraphMoves (x y : Option (Option Nat × Nat)) : Prop :=
  y = x ∨ y = none ∨ x = none ∨ ∃ o v o', x = some (o, v) ∧ y = some (o', v + 1)

/-- What stays: layers, layers in hand, the names of builders. The layer of a builder that is
committed and not in `exc` is not made. -/
structure Grew (exc : Nat → Prop) (s s' : State K V L) : Prop where
  log : s'.log = s.log ∨ ∃ e, ¬ s.log.known e.new ∧ s'.log = e :: s.log
  handles : s.handles <+: s'.handles
  builders : ∀ (b : Nat) (y : Builder K V), s.builders[b]? = some y → ∃ y' : Builder K V, s'.builders[b]? = some y' ∧
    y'.name = y.name ∧ y'.parent = y.parent ∧ (y.calls = none → y'.calls = none)
  unborn : ∀ (b : Nat) (y : Builder K V), ¬ exc b → s.builders[b]? = some y → y.calls = none → ¬ s.log.known y.name →
    y.name ∉ s.hidden → ¬ s'.log.known y.name ∧ y.name ∉ s'.hidden
  graphs : ∀ l, GraphMoves (s.graphs l) (s'.graphs l)
  ids : ∀ n, s.log.known n → s'.ids n = s.ids n

namespace Grew

variable {exc : Nat → Prop} {s s' : State K V L}

theorem refl : Grew exc s s :=
  { log := Or.inl rfl
    handles := List.prefix_rfl
    builders := fun _ y h => ⟨y, h, rfl, rfl, id⟩
    unborn := fun _ _ _ _ _ h1 h2 => ⟨h1, h2⟩
    graphs := fun _ => Or.inl rfl
    ids := fun _ _ => rfl }

/-- The same with other layers in hand. -/
theorem handed (h : Grew exc s s') {hs : List Nat} (hh : s.handles <+: hs) :
    Grew exc s { s' with handles := hs } :=
  { log := h.log, handles := hh, builders := h.builders, unborn := h.unborn, graphs := h.graphs,
    ids := h.ids }

theorem hold (h : Grew exc s s') (n : Nat) : Grew exc s (s'.hold n) :=
  h.handed (h.handles.trans (List.prefix_append ..))

theorem setGraph {l : L} {x : Option (Option Nat × Nat)} (hx : GraphMoves (s.graphs l) x) :
    Grew exc s (s.setGraph l x) :=
  { log := Or.inl rfl
    handles := List.prefix_rfl
    builders := fun _ y h => ⟨y, h, rfl, rfl, id⟩
    unborn := fun _ _ _ _ _ h1 h2 => ⟨h1, h2⟩
    graphs := by
      intro k
      show GraphMoves (s.graphs k) (if k = l then x else s.graphs k)
      by_cases hk : k = l
      · rw [if_pos hk, hk]; exact hx
      · rw [if_neg hk]; exact Or.inl rfl
    ids := fun _ _ => rfl }

theorem next {l : L} {o o' : Option Nat} {v : Nat} (h : s.graphs l = some (o, v)) :
    Grew exc s (s.setGraph l (some (o', v + 1))) :=
  setGraph (Or.inr (Or.inr (Or.inr ⟨o, v, o', h, rfl⟩)))

theorem add {e : Spec.Event (VTriple K V)} {i : Ids K V} (hn : ¬ s.log.known e.new)
    (hb : ∀ (b : Nat) (y : Builder K V), ¬ exc b → s.builders[b]? = some y → y.calls = none → y.name ≠ e.new) :
    Grew exc s (s.add e i) :=
  { log := Or.inr ⟨e, hn, rfl⟩
    handles := List.prefix_rfl
    builders := fun _ y h => ⟨y, h, rfl, rfl, id⟩
    unborn := by
      intro b y hx hy hc h1 h2
      refine ⟨?_, h2⟩
      intro hk
      rcases History.known_cons.1 hk with hk | hk
      · exact hb b y hx hy hc hk.symm
      · exact h1 hk
    graphs := fun _ => Or.inl rfl
    ids := by
      intro n hk
      show (if n = e.new then i else s.ids n) = _
      rw [if_neg]
      rintro rfl; exact hn hk }

theorem addFresh {e : Spec.Event (VTriple K V)} {i : Ids K V} (hn : s.Fresh e.new) :
    Grew exc s (s.add e i) :=
  add hn.1 (fun _ _ _ hy _ => hn.2.2.1 _ (List.mem_of_getElem? hy))

theorem hidden {new : Nat} (hn : s.Fresh new) : Grew exc s { s with hidden := new :: s.hidden } :=
  { log := Or.inl rfl
    handles := List.prefix_rfl
    builders := fun _ y h => ⟨y, h, rfl, rfl, id⟩
    unborn := by
      intro b y _ hy _ h1 h2
      refine ⟨h1, ?_⟩
      intro hm
      rcases List.mem_cons.1 hm with hm | hm
      · exact hn.2.2.1 y (List.mem_of_getElem? hy) hm
      · exact h2 hm
    graphs := fun _ => Or.inl rfl
    ids := fun _ _ => rfl }

/-- Which layers were rolled up makes no difference. -/
theorem rolled (h : Grew exc s s') (f : Nat → Option (Option Nat)) :
    Grew exc s { s' with rolled := f } :=
  { log := h.log, handles := h.handles, builders := h.builders, unborn := h.unborn, graphs := h.graphs,
    ids := h.ids }

theorem newBuilder (y : Builder K V) : Grew exc s { s with builders := s.builders ++ [y] } :=
  { log := Or.inl rfl
    handles := List.prefix_rfl
    builders := by
      intro b x hx
      refine ⟨x, ?_, rfl, rfl, id⟩
      rw [List.getElem?_append_left (List.getElem?_eq_some_iff.1 hx).1]
      exact hx
    unborn := fun _ _ _ _ _ h1 h2 => ⟨h1, h2⟩
    graphs := fun _ => Or.inl rfl
    ids := fun _ _ => rfl }

theorem setBuilder (h : Grew exc s s') {b : Nat} {x x' : Builder K V}
    (hx : s'.builders[b]? = some x) (hn : x'.name = x.name) (hp : x'.parent = x.parent)
    (hc : x.calls = none → x'.calls = none) : Grew exc s (s'.setBuilder b x') :=
  { log := h.log
    handles := h.handles
    builders := by
      intro i y hy
      obtain ⟨y', h1, h2, h3, h4⟩ := h.builders i y hy
      show ∃ y', (s'.builders.set b x')[i]? = some y' ∧ _
      by_cases hi : b = i
      · subst hi
        rw [hx] at h1
        cases h1
        refine ⟨x', ?_, hn.trans h2, hp.trans h3, fun h => hc (h4 h)⟩
        rw [List.getElem?_set_self (List.getElem?_eq_some_iff.1 hx).1]
      · exact ⟨y', by rw [List.getElem?_set_ne hi]; exact h1, h2, h3, h4⟩
    unborn := h.unborn
    graphs := h.graphs
    ids := h.ids }

theorem known (h : Grew exc s s') {n : Nat} (hn : s.log.known n) : s'.log.known n := by
  rcases h.log with h | ⟨e, _, h⟩
  · rw [h]; exact hn
  · rw [h]; exact History.known_cons.2 (Or.inr hn)

theorem handle (h : Grew exc s s') {i n : Nat} (hi : s.handles[i]? = some n) :
    s'.handles[i]? = some n := by
  obtain ⟨l, hl⟩ := h.handles
  rw [← hl, List.getElem?_append_left (List.getElem?_eq_some_iff.1 hi).1]
  exact hi

theorem parent (h : Grew exc s s') {n : Nat} (hn : s.log.known n) :
    s'.log.parent n = s.log.parent n := by
  rcases h.log with h | ⟨e, he, h⟩
  · rw [h]
  · rw [h, History.parent_cons_ne]
    rintro rfl; exact he hn

theorem triples (h : Grew exc s s') {n : Nat} (hn : s.log.known n) :
    s'.log.triples n = s.log.triples n := by
  rcases h.log with h | ⟨e, he, h⟩
  · rw [h]
  · rw [h]
    funext t
    rw [History.triples_cons_ne]
    rintro rfl; exact he hn

theorem ancestor (h : Grew exc s s') {m n : Nat} (ha : s.log.Ancestor m n) :
    s'.log.Ancestor m n := by
  rcases h.log with h | ⟨e, he, h⟩
  · rw [h]; exact ha
  · rw [h]; exact ha.cons he

theorem under (h : Grew exc s s') {m n : Nat} (hu : s.Under m n) : s'.Under m n := by
  obtain ⟨p, h1, h2⟩ := hu
  exact ⟨p, by rw [h.parent (History.known_of_parent h1)]; exact h1, h.ancestor h2⟩

theorem notAncestor (h : Grew exc s s') (hk : ∀ n p, s.log.parent n = some p → s.log.known p)
    {m n : Nat} (hn : s.log.known n) (ha : ¬ s.log.Ancestor m n) : ¬ s'.log.Ancestor m n := by
  intro hc
  apply ha
  clear ha
  induction hc with
  | self => exact .self _
  | @up p n hp _ ih =>
    rw [h.parent hn] at hp
    exact .up hp (ih (hk _ _ hp))

end Grew

/-- A call that takes effect at once. -/
theorem grew_step {s s' : State K V L} {c : Req K V L} {r : Ans K V L}
    (h : Step s c r s') (hd : (s.builders.map (·.name)).Nodup)
    (hu : ∀ y ∈ s.builders, y.calls ≠ none → ¬ s.log.known y.name ∧ y.name ∉ s.hidden)
    {exc : Nat → Prop} : Grew exc s s' := by
  have commits : ∀ {b x cs i}, s.builders[b]? = some x → x.calls = some cs →
      Grew exc s ((s.add (.commit x.name x.parent cs) i).setBuilder b { x with calls := none }) := by
    intro b x cs i hx hc
    refine Grew.setBuilder (x := x) (Grew.add ?_ ?_) hx rfl rfl (fun _ => rfl)
    · exact (hu x (List.mem_of_getElem? hx) (by rw [hc]; simp)).1
    · intro b' y _ hy hyc hn
      have hn : y.name = x.name := hn
      by_cases hb : b = b'
      · subst hb; rw [hx] at hy; cases hy; rw [hc] at hyc; cases hyc
      · have h1 : (s.builders.map (·.name))[b]? = some x.name := by simp [hx]
        have h2 : (s.builders.map (·.name))[b']? = some x.name := by simp [hy, hn]
        exact hb ((List.getElem?_inj (List.getElem?_eq_some_iff.1 h1).1 hd).1 (h1.trans h2.symm))
  cases h with
  | createGraph h => exact .setGraph (Or.inr (Or.inr (Or.inl h)))
  | deleteGraph _ => exact .setGraph (Or.inr (Or.inl rfl))
  | dropGraph => exact .setGraph (Or.inr (Or.inl rfl))
  | head _ => exact Grew.refl.hold _
  | setHead h _ _ => exact .next h
  | forceSetHead h _ => exact .next h
  | forceSetHeadVersion h _ => exact .next h
  | getLayer _ => exact Grew.refl.hold _
  | parent _ _ => exact Grew.refl.hold _
  | squash _ h _ => exact (Grew.addFresh h).hold _
  | squashUpto _ _ _ h _ => exact (Grew.addFresh h).hold _
  | merge _ h _ => exact Grew.addFresh h
  | rollup _ _ _ h => exact (Grew.hidden h).rolled _
  | rollupUpto _ _ _ _ _ _ h _ => exact (Grew.hidden h).rolled _
  | createBase _ => exact .newBuilder _
  | openWrite _ _ => exact .newBuilder _
  | builderParent _ _ => exact Grew.refl.hold _
  | edit h hc _ => exact Grew.refl.setBuilder h rfl rfl (by rw [hc]; intro h; cases h)
  | commitNoLoad h hc _ => exact commits h hc
  | commit h hc _ => exact (commits h hc).hold _
  | applyDelta h hc _ _ => exact Grew.refl.setBuilder h rfl rfl (by rw [hc]; intro h; cases h)
  | applyDiff h hc _ _ => exact Grew.refl.setBuilder h rfl rfl (by rw [hc]; intro h; cases h)
  | _ => exact Grew.refl

/-- The layers in hand after a call that takes effect at once. -/
theorem step_handles {s s' : State K V L} {c : Req K V L} {r : Ans K V L}
    (h : Step s c r s') : ∃ held, s'.handles = s.handles ++ held := by
  cases h with
  | head _ => exact ⟨_, rfl⟩
  | getLayer _ => exact ⟨_, rfl⟩
  | parent _ _ => exact ⟨_, rfl⟩
  | squash _ _ _ => exact ⟨_, rfl⟩
  | squashUpto _ _ _ _ _ => exact ⟨_, rfl⟩
  | builderParent _ _ => exact ⟨_, rfl⟩
  | commit _ _ _ => exact ⟨_, rfl⟩
  | _ => exact ⟨[], (List.append_nil _).symm⟩

/-- Any effect. -/
theorem grew_effect {past : List (State K V L)} {s s' : State K V L} {p p' : Pending K V L}
    (h : Effect past s p s' p') (hd : (s.builders.map (·.name)).Nodup)
    (hu : ∀ y ∈ s.builders, y.calls ≠ none → ¬ s.log.known y.name ∧ y.name ∉ s.hidden)
    (hc : ∀ b cs load x, p = .closing b cs load → s.builders[b]? = some x → ¬ s.log.known x.name) :
    Grew (fun b => ∃ cs load, p = .closing b cs load) s s' ∧ s'.handles = s.handles := by
  cases h with
  | once h _ => exact ⟨(grew_step h hd hu).handed List.prefix_rfl, rfl⟩
  | setHeadAgain _ h _ _ _ => exact ⟨.next h, rfl⟩
  | close _ h _ => exact ⟨Grew.refl.setBuilder h rfl rfl (fun _ => rfl), rfl⟩
  | @write b x cs load i _ _ h _ _ =>
    refine ⟨.add (hc _ _ _ _ rfl h) ?_, rfl⟩
    intro b' y hb hy _ hn
    have hn : y.name = x.name := hn
    have h1 : (s.builders.map (·.name))[b]? = some x.name := by simp [h]
    have h2 : (s.builders.map (·.name))[b']? = some x.name := by simp [hy, hn]
    have := (List.getElem?_inj (List.getElem?_eq_some_iff.1 h1).1 hd).1 (h1.trans h2.symm)
    subst this
    exact hb ⟨_, _, rfl⟩
  | hide _ _ _ h => exact ⟨.hidden h, rfl⟩
  | settle => exact ⟨Grew.refl.rolled _, rfl⟩
  | again _ _ _ => exact ⟨Grew.refl.rolled _, rfl⟩
  | apply h hx => exact ⟨Grew.refl.setBuilder h rfl rfl (by rw [hx]; intro h; cases h), rfl⟩
  | _ => exact ⟨Grew.refl, rfl⟩

end Verif.Conc
