import Verif.CommitSpec
import Verif.Lemmas.HeadLine

/-!
The changes that a builder was given, from the call that makes the builder to the layer.
-/

set_option linter.unusedSectionVars false

namespace Verif.Conc

open Spec Api

variable {K V L : Type} [DecidableEq L]

/-- The call may make the change. -/
def May (b : Nat) (q : Req K V L) : Call (VTriple K V) → Prop
  | .add t => MayAdd b t q
  | .remove t => MayRemove b t q

/-- The builder after a call that takes effect at once. -/
theorem step_builder {s s' : State K V L} {q : Req K V L} {r : Ans K V L} (h : Step s q r s')
    {b : Nat} {x : Builder K V} (hx : s.builders[b]? = some x) :
    ∃ x' : Builder K V, s'.builders[b]? = some x' ∧ x'.name = x.name ∧ x'.parent = x.parent ∧
      (x'.calls = x.calls ∨
       (∃ cs new, x.calls = some cs ∧ x'.calls = some (cs ++ new) ∧ ∀ c ∈ new, May b q c) ∨
       ∃ cs, x.calls = some cs ∧ x'.calls = none ∧ s'.log = .commit x.name x.parent cs :: s.log) := by
  have hlen : b < s.builders.length := (List.getElem?_eq_some_iff.1 hx).1
  have set : ∀ {b' : Nat} {y y' : Builder K V}, s.builders[b']? = some y → y'.name = y.name →
      y'.parent = y.parent → (b' = b → x = y → y'.calls = x.calls ∨
       (∃ cs new, x.calls = some cs ∧ y'.calls = some (cs ++ new) ∧ ∀ c ∈ new, May b q c) ∨
       ∃ cs, x.calls = some cs ∧ y'.calls = none ∧ s'.log = .commit x.name x.parent cs :: s.log) →
      ∃ x' : Builder K V, (s.builders.set b' y')[b]? = some x' ∧ x'.name = x.name ∧
        x'.parent = x.parent ∧ (x'.calls = x.calls ∨
       (∃ cs new, x.calls = some cs ∧ x'.calls = some (cs ++ new) ∧ ∀ c ∈ new, May b q c) ∨
       ∃ cs, x.calls = some cs ∧ x'.calls = none ∧ s'.log = .commit x.name x.parent cs :: s.log) := by
    intro b' y y' hy h1 h2 h3
    by_cases hb : b' = b
    · subst hb
      rw [hx] at hy
      cases hy
      exact ⟨y', List.getElem?_set_self hlen, h1, h2, h3 rfl rfl⟩
    · exact ⟨x, by rw [List.getElem?_set_ne hb]; exact hx, rfl, rfl, .inl rfl⟩
  have more : ∀ y : Builder K V, (s.builders ++ [y])[b]? = some x := by
    intro y
    rw [List.getElem?_append_left hlen]
    exact hx
  have same : ∃ x' : Builder K V, s.builders[b]? = some x' ∧ x'.name = x.name ∧
        x'.parent = x.parent ∧ (x'.calls = x.calls ∨
       (∃ cs new, x.calls = some cs ∧ x'.calls = some (cs ++ new) ∧ ∀ c ∈ new, May b q c) ∨
       ∃ cs, x.calls = some cs ∧ x'.calls = none ∧ s'.log = .commit x.name x.parent cs :: s.log) :=
    ⟨x, hx, rfl, rfl, .inl rfl⟩
  cases h with
  | createBase => exact ⟨x, more _, rfl, rfl, .inl rfl⟩
  | openWrite => exact ⟨x, more _, rfl, rfl, .inl rfl⟩
  | @edit _ y cs e c hy hc hm =>
    refine set hy rfl rfl ?_
    rintro rfl rfl
    refine .inr (.inl ⟨cs, [c], hc, rfl, ?_⟩)
    intro c' hc'
    cases List.mem_singleton.1 hc'
    match e, c, hm with
    | .addValue t, .add t', hm => exact ⟨rfl, hm.symm⟩
    | .removeValue t, .remove t', hm => exact ⟨rfl, hm.symm⟩
    | .addId u, .add t, _ => exact rfl
    | .removeId u, .remove t, _ => exact rfl
  | commitNoLoad hy hc =>
    refine set hy rfl rfl ?_
    rintro rfl rfl
    exact .inr (.inr ⟨_, hc, rfl, rfl⟩)
  | commit hy hc =>
    refine set hy rfl rfl ?_
    rintro rfl rfl
    exact .inr (.inr ⟨_, hc, rfl, rfl⟩)
  | applyDelta hy hc =>
    refine set hy rfl rfl ?_
    rintro rfl rfl
    refine .inr (.inl ⟨_, _, hc, rfl, ?_⟩)
    intro c _
    cases c <;> rfl
  | applyDiff hy hc =>
    refine set hy rfl rfl ?_
    rintro rfl rfl
    refine .inr (.inl ⟨_, _, hc, rfl, ?_⟩)
    intro c _
    cases c <;> rfl
  | _ => exact same

/-- The layer of this name was made with changes of which `R` is true. -/
def Made (R : List (Call (VTriple K V)) → Prop) (s : State K V L) (n : Nat) (o : Option Nat) : Prop :=
  s.log.known n ∧ ∃ cs, R cs ∧ ∀ t, s.log.triples n t ↔ after (s.log.below o) cs t

/-- The builder `b` has changes of which `R` is true, or its layer has. -/
def Gets (R : List (Call (VTriple K V)) → Prop) (A : CState K V L) (b : Nat) (x : Builder K V) :
    Prop :=
  A.now.builders[b]? = some x ∧
    ((∃ cs, x.calls = some cs ∧ R cs) ∨
     (x.calls = none ∧ ((∃ u cs load, A.calls u = some (.closing b cs load) ∧ R cs) ∨
       Made R A.now x.name x.parent)))

/-- No change but such with `P` is about to be made. -/
def Only (P : Call (VTriple K V) → Prop) (b : Nat) : Option (Conc.Pending K V L) → Prop
  | some (.asked q _) => ∀ c, May b q c → P c
  | some (.applying b' cs _) => b' = b → ∀ c ∈ cs, P c
  | _ => True

theorem known_grew {exc : Nat → Prop} {s s' : State K V L} (h : Grew exc s s')
    {R : List (Call (VTriple K V)) → Prop} {n : Nat} {o : Option Nat}
    (ho : ∀ p, o = some p → s.log.known p) (hm : Made R s n o) : Made R s' n o := by
  obtain ⟨h1, cs, h2, h3⟩ := hm
  refine ⟨h.known h1, cs, h2, fun t => ?_⟩
  rw [h.triples h1, h.below ho]
  exact h3 t

/-- The layer is made. -/
theorem made_new {s : State K V L} {R : List (Call (VTriple K V)) → Prop} {n : Nat}
    {o : Option Nat} {cs : List (Call (VTriple K V))} {s' : State K V L}
    (ho : ∀ p, o = some p → s.log.known p) (hn : ¬ s.log.known n)
    (hl : s'.log = .commit n o cs :: s.log) (hR : R cs) : Made R s' n o := by
  refine ⟨by rw [hl]; exact History.known_cons.2 (.inl rfl), cs, hR, fun t => ?_⟩
  rw [hl]
  cases o with
  | none => simp only [History.triples, Event.new, if_true]; rfl
  | some p =>
    have hp : p ≠ n := fun e => hn (e ▸ ho p rfl)
    have e1 : History.below (.commit n (some p) cs :: s.log) (some p) = s.log.triples p := by
      funext t
      exact propext (History.triples_cons_ne (e := .commit n (some p) cs) hp t)
    rw [e1]
    simp only [History.triples, Event.new, if_true]

section

variable {P : Call (VTriple K V) → Prop} {R : List (Call (VTriple K V)) → Prop}

theorem more_list (hR : ∀ cs c, R cs → P c → R (cs ++ [c])) :
    ∀ (new cs : List (Call (VTriple K V))), R cs → (∀ c ∈ new, P c) → R (cs ++ new)
  | [], cs, h, _ => by rw [List.append_nil]; exact h
  | c :: new, cs, h, hn => by
    have := more_list hR new (cs ++ [c]) (hR cs c h (hn c List.mem_cons_self))
      fun c' hc' => hn c' (List.mem_cons_of_mem _ hc')
    simpa using this

/-- What the builder gets stays so. -/
theorem Gets.goes (hR : ∀ cs c, R cs → P c → R (cs ++ [c])) {A A' : CState K V L}
    {e : Conc.Event K V L} (hg : Goes A e A') (hw : CWf A) {b : Nat} {x : Builder K V}
    (ho : ∀ u, Only P b (A.calls u)) (h : Gets R A b x) :
    ∃ x', Gets R A' b x' ∧ x'.name = x.name ∧ x'.parent = x.parent := by
  obtain ⟨hx, h⟩ := h
  have hon : ∀ p, x.parent = some p → A.now.log.known p :=
    hw.now.on x (List.mem_of_getElem? hx)
  cases hg with
  | @inv t c ht =>
    refine ⟨x, ⟨hx, h.imp_right (And.imp_right (Or.imp_left ?_))⟩, rfl, rfl⟩
    rintro ⟨u, cs, load, h1, h2⟩
    refine ⟨u, cs, load, ?_, h2⟩
    have : u ≠ t := by rintro rfl; rw [ht] at h1; cases h1
    show (if u = t then _ else _) = _
    rw [if_neg this]; exact h1
  | skip => exact ⟨x, ⟨hx, h⟩, rfl, rfl⟩
  | @ret t r held ht =>
    refine ⟨x, ⟨hx, h.imp_right (And.imp_right (Or.imp_left ?_))⟩, rfl, rfl⟩
    rintro ⟨u, cs, load, h1, h2⟩
    refine ⟨u, cs, load, ?_, h2⟩
    have : u ≠ t := by rintro rfl; rw [ht] at h1; cases h1
    show (if u = t then _ else _) = _
    rw [if_neg this]; exact h1
  | @act t new p s' p' hp hc he hf =>
    have hgr := (hw.grew hp he).1
    have hop := ho t
    rw [hp] at hop
    have unborn : ∀ cs, x.calls = some cs → ¬ A.now.log.known x.name := fun cs hcs =>
      (hw.now.unborn x (List.mem_of_getElem? hx) (by rw [hcs]; simp)).1
    /- Nothing happens to the builder. -/
    have same : s'.builders[b]? = some x → (∀ cs load, p ≠ .closing b cs load) →
        ∃ x', Gets R ({ now := s', past := A.now :: A.past, calls := fun u =>
          if u = t then some p' else A.calls u } : CState K V L) b x' ∧ x'.name = x.name ∧
          x'.parent = x.parent := by
      intro hx' hnp
      refine ⟨x, ⟨hx', h.imp_right (And.imp_right (Or.imp ?_ (known_grew hgr hon)))⟩, rfl, rfl⟩
      rintro ⟨u, cs, load, h1, h2⟩
      refine ⟨u, cs, load, ?_, h2⟩
      have : u ≠ t := by rintro rfl; rw [hp] at h1; cases h1; exact hnp _ _ rfl
      show (if u = t then _ else _) = _
      rw [if_neg this]; exact h1
    have set : ∀ {b' : Nat} {y y' : Builder K V}, A.now.builders[b']? = some y → b' ≠ b →
        (A.now.builders.set b' y')[b]? = some x := by
      intro b' y y' _ hb
      rw [List.getElem?_set_ne hb]
      exact hx
    have self : ∀ y' : Builder K V, (A.now.builders.set b y')[b]? = some y' := fun y' =>
      List.getElem?_set_self (List.getElem?_eq_some_iff.1 hx).1
    cases he with
    | @once q k r s1 held hs hh =>
      obtain ⟨x', g1, g2, g3, g4⟩ := step_builder hs hx
      rcases g4 with g4 | ⟨cs, add, g4, g5, g6⟩ | ⟨cs, g4, g5, g6⟩
      · have : x' = x := by cases x; cases x'; simp_all
        subst this
        exact same g1 (by intro cs load e; cases e)
      · refine ⟨x', ⟨g1, .inl ⟨_, g5, ?_⟩⟩, g2, g3⟩
        rcases h with ⟨cs', h1, h2⟩ | ⟨h1, _⟩
        · rw [g4] at h1
          cases h1
          exact more_list hR _ _ h2 fun c hc => hop c (g6 c hc)
        · rw [g4] at h1; cases h1
      · refine ⟨x', ⟨g1, .inr ⟨g5, .inr ?_⟩⟩, g2, g3⟩
        rcases h with ⟨cs', h1, h2⟩ | ⟨h1, _⟩
        · rw [g4] at h1
          cases h1
          rw [g2, g3]
          exact made_new (s := A.now) hon (unborn _ g4) g6 h2
        · rw [g4] at h1; cases h1
    | @close b' y cs load q k hc hy hcs =>
      by_cases hb : b' = b
      · subst hb
        rw [hx] at hy
        cases hy
        refine ⟨{ x with calls := none }, ⟨self _, .inr ⟨rfl, .inl ⟨t, cs, load, if_pos rfl, ?_⟩⟩⟩,
          rfl, rfl⟩
        rcases h with ⟨cs', h1, h2⟩ | ⟨h1, _⟩
        · rw [hcs] at h1; cases h1; exact h2
        · rw [hcs] at h1; cases h1
      · exact same (set hy hb) (by intro cs load e; cases e)
    | @write b' y cs load i r held hy hi hr =>
      by_cases hb : b' = b
      · subst hb
        rw [hx] at hy
        cases hy
        obtain ⟨z, z1, z2, z3, _⟩ := hw.closing _ _ _ _ hp
        rw [hx] at z1
        cases z1
        refine ⟨x, ⟨hx, .inr ⟨z2, .inr ?_⟩⟩, rfl, rfl⟩
        rcases h with ⟨cs', h1, _⟩ | ⟨_, ⟨u, cs', load', h1, h2⟩ | h1⟩
        · rw [z2] at h1; cases h1
        · have := hw.apart _ _ _ _ _ _ _ hp h1
          subst this
          rw [hp] at h1
          cases h1
          exact made_new (s := A.now) hon z3 rfl h2
        · exact (z3 h1.1).elim
      · exact same hx (by intro cs load e; cases e; exact hb rfl)
    | @apply b' y c cs d strict hy hd =>
      by_cases hb : b' = b
      · subst hb
        rw [hx] at hy
        cases hy
        refine ⟨{ x with calls := some (d ++ [c]) }, ⟨self _, .inl ⟨_, rfl, ?_⟩⟩, rfl, rfl⟩
        rcases h with ⟨cs', h1, h2⟩ | ⟨h1, _⟩
        · rw [hd] at h1
          cases h1
          exact hR _ _ h2 (hop rfl c List.mem_cons_self)
        · rw [hd] at h1; cases h1
      · exact same (set hy hb) (by intro cs load e; cases e)
    | _ => exact same hx (by intro cs load e; cases e)

/-- What is about to be made. -/
theorem Only.goes {A A' : CState K V L} {e : Conc.Event K V L} (hg : Goes A e A') {b : Nat}
    (he : ∀ u q, e = .inv u q → ∀ c, May b q c → P c) (ho : ∀ u, Only P b (A.calls u)) :
    ∀ u, Only P b (A'.calls u) := by
  intro u
  cases hg with
  | @inv t c ht =>
    show Only P b (if u = t then _ else _)
    split
    · exact he _ _ rfl
    · exact ho u
  | skip => exact ho u
  | @ret t r held ht =>
    show Only P b (if u = t then _ else _)
    split
    · trivial
    · exact ho u
  | @act t new p s' p' hp hc hf _ =>
    show Only P b (if u = t then _ else _)
    split
    · have hop := ho t
      rw [hp] at hop
      cases hf with
      | readDelta =>
        rintro rfl c _
        exact hop c (by cases c <;> rfl)
      | readDiff =>
        rintro rfl c _
        exact hop c (by cases c <;> rfl)
      | apply => exact fun hb c hc => hop hb c (List.mem_cons_of_mem _ hc)
      | applySkip => exact fun hb c hc => hop hb c (List.mem_cons_of_mem _ hc)
      | _ => trivial
    · exact ho u

/-- A new builder has no changes. -/
theorem born {A A' : CState K V L} {e : Conc.Event K V L} (hg : Goes A e A') {b : Nat}
    (hb : A.now.builders[b]? = none) {x : Builder K V} (hx : A'.now.builders[b]? = some x) :
    x.calls = some [] := by
  have last : ∀ y : Builder K V, (A.now.builders ++ [y])[b]? = some x → x = y := by
    intro y h
    rw [List.getElem?_append_right (List.getElem?_eq_none_iff.1 hb)] at h
    exact List.mem_singleton.1 (List.mem_of_getElem? h)
  have set : ∀ {b' : Nat} {y : Builder K V}, (A.now.builders.set b' y)[b]? = some x → False := by
    intro b' y h
    have h1 := (List.getElem?_eq_some_iff.1 h).1
    rw [List.length_set] at h1
    exact absurd h1 (Nat.not_lt.2 (List.getElem?_eq_none_iff.1 hb))
  have no : A.now.builders[b]? = some x → False := fun h => by rw [hb] at h; cases h
  cases hg with
  | inv => exact (no hx).elim
  | skip => exact (no hx).elim
  | ret => exact (no hx).elim
  | act hp hc hf _ =>
    cases hf with
    | once hs =>
      cases hs with
      | createBase => cases last _ hx; rfl
      | openWrite => cases last _ hx; rfl
      | edit => exact (set hx).elim
      | commit => exact (set hx).elim
      | commitNoLoad => exact (set hx).elim
      | applyDelta => exact (set hx).elim
      | applyDiff => exact (set hx).elim
      | _ => exact (no hx).elim
    | close => exact (set hx).elim
    | apply => exact (set hx).elim
    | _ => exact (no hx).elim

/-- No other changes begin. -/
def Starts (P : Call (VTriple K V) → Prop) (b : Nat) (evs : List (Conc.Event K V L)) : Prop :=
  ∀ u q, .inv u q ∈ evs → ∀ c, May b q c → P c

theorem Starts.split {b : Nat} {a c : List (Conc.Event K V L)} (h : Starts P b (a ++ c)) :
    Starts P b a ∧ Starts P b c :=
  ⟨fun u q hq => h u q (List.mem_append_left _ hq), fun u q hq => h u q (List.mem_append_right _ hq)⟩

theorem Only.kept {A B : CState K V L} {evs : List (Conc.Event K V L)} (hk : Kept A evs B) {b : Nat} :
    Starts P b evs → (∀ u, Only P b (A.calls u)) → ∀ u, Only P b (B.calls u) := by
  induction hk with
  | nil => exact fun _ h => h
  | cons hg _ ih =>
    intro hs ho
    refine ih (fun u q hq => hs u q (List.mem_cons_of_mem _ hq)) (Only.goes hg ?_ ho)
    rintro u q rfl
    exact hs u q List.mem_cons_self

theorem Gets.kept (hR : ∀ cs c, R cs → P c → R (cs ++ [c])) {A B : CState K V L}
    {evs : List (Conc.Event K V L)} (hk : Kept A evs B) {b : Nat} :
    ∀ {x : Builder K V}, CWf A → Starts P b evs → (∀ u, Only P b (A.calls u)) → Gets R A b x →
    ∃ x', Gets R B b x' ∧ x'.name = x.name ∧ x'.parent = x.parent := by
  induction hk with
  | nil => exact fun _ _ _ h => ⟨_, h, rfl, rfl⟩
  | cons hg _ ih =>
    intro x hw hs ho h
    obtain ⟨y, h1, h2, h3⟩ := h.goes hR hg hw ho
    obtain ⟨z, h4, h5, h6⟩ := ih (hw.goes hg) (fun u q hq => hs u q (List.mem_cons_of_mem _ hq))
      (Only.goes hg (by rintro u q rfl; exact hs u q List.mem_cons_self) ho) h1
    exact ⟨z, h4, h5.trans h2, h6.trans h3⟩

/-- From the beginning. -/
theorem Gets.always (hR : ∀ cs c, R cs → P c → R (cs ++ [c])) (h0 : R []) {A B : CState K V L}
    {evs : List (Conc.Event K V L)} (hk : Kept A evs B) {b : Nat} :
    CWf A → Starts P b evs → (∀ u, Only P b (A.calls u)) →
    (∀ x, A.now.builders[b]? = some x → Gets R A b x) →
    ∀ x, B.now.builders[b]? = some x → Gets R B b x := by
  induction hk with
  | nil => exact fun _ _ _ h => h
  | @cons A e A' rest B hg _ ih =>
    intro hw hs ho h
    refine ih (hw.goes hg) (fun u q hq => hs u q (List.mem_cons_of_mem _ hq))
      (Only.goes hg (by rintro u q rfl; exact hs u q List.mem_cons_self) ho) ?_
    intro x hx
    rcases hb : A.now.builders[b]? with _ | y
    · exact ⟨hx, .inl ⟨[], born hg hb hx, h0⟩⟩
    · obtain ⟨z, h1, _⟩ := (h y hb).goes hR hg hw ho
      have := h1.1
      rw [hx] at this
      cases this
      exact h1

end

/-! ### Edits -/

theorem edit_once {b : Nat} {e : Edit K V} {past : List (State K V L)} {s s' : State K V L}
    {k : Nat} {p' : Conc.Pending K V L} (h : Effect past s (.asked (.edit b e) k) s' p') :
    ∃ r held, p' = .answered r held ∧ (r = .done → ∃ x cs c, s.builders[b]? = some x ∧
      x.calls = some cs ∧ Edit.Means (s.baseIds x.parent) e c ∧
      s'.builders = s.builders.set b { x with calls := some (cs ++ [c]) }) := by
  cases h with
  | once hs =>
    refine ⟨_, _, rfl, ?_⟩
    rintro rfl
    cases hs with
    | edit hx hc hm => exact ⟨_, _, _, hx, hc, hm, rfl⟩
    | rollupUptoNothing _ _ _ hc => rcases hc with hc | hc <;> cases hc
    | rollupUpto _ _ _ _ _ _ _ hc => rcases hc with hc | hc <;> cases hc
  | close hc => rcases hc with ⟨hc, _⟩ | ⟨hc, _⟩ <;> cases hc
  | hide hr =>
    cases hr with
    | upto _ _ hc => rcases hc with hc | hc <;> cases hc
  | again hr =>
    cases hr with
    | upto _ _ hc => rcases hc with hc | hc <;> cases hc

theorem numbered_done {i : Nat} {r : Ans K V L} (h : Ans.done = CState.numbered i r) : r = .done := by
  unfold CState.numbered at h
  split at h
  · cases h
  · cases h
  · exact h.symm

section

variable {P : Call (VTriple K V) → Prop}

/-- The store in a new process. -/
structure Opened (s : State K V L) : Prop where
  wf : Wf s
  builders : s.builders = []

theorem Opened.empty {s : State K V L} (h : Opened s) {Q : Builder K V → Prop} (b : Nat) :
    ∀ x, s.builders[b]? = some x → Q x := by
  intro x hx
  rw [h.builders] at hx
  cases hx

theorem LivesKept.opened {s s' : State K V L} {evss : List (List (Conc.Event K V L))}
    (h : LivesKept s evss s') : Opened s → Opened s' := by
  induction h with
  | nil => exact fun h => h
  | stop h1 h2 h3 ih =>
    intro h
    refine ih ⟨(LivesKept.stays (.stop h1 h2 .nil) h.wf).2, ?_⟩
    obtain ⟨lost, rfl, _⟩ := h2
    rfl

/-- An edit that has succeeded is among the changes. -/
theorem edited {s : State K V L} (ho : Opened s)
    {evs : List (Conc.Event K V L)} {B : CState K V L} (hk : Kept { now := s } evs B) {b : Nat}
    {e : Edit K V} {c : Call (VTriple K V)}
    (hm : ∀ (i : Ids K V) c', Edit.Means i e c' → c' = c) (hs : Starts P b evs)
    (h1 : (.edit b e, .done) ∈ pairs (fun _ => none) evs) :
    ∃ x, Gets (fun cs => c ∈ cs ∧ ∀ c' ∈ cs, c' ≠ c → P c') B b x := by
  obtain ⟨r0, held, i, hmo, hr, _⟩ := moment (c0 := .edit b e)
    (fun h => by obtain ⟨r, held, h1, _⟩ := edit_once h; exact ⟨r, held, h1⟩) hk ho.wf.alone h1
  cases numbered_done hr
  obtain ⟨evs1, evs2, C, t, k, new, s', rfl, k1, he, hg, k2⟩ := hmo
  obtain ⟨hs1, hs2⟩ := hs.split
  have hs3 : Starts P b evs2 := fun u q hq => hs2 u q (List.mem_cons_of_mem _ hq)
  have wC := CWf.kept k1 ho.wf.alone
  have w2 := wC.goes hg
  have oC := Only.kept k1 hs1 (fun u => trivial)
  have o2 := Only.goes hg (by rintro u q e; cases e) oC
  obtain ⟨_, _, e1, e2⟩ := edit_once he
  cases e1
  obtain ⟨x, cs, c', x1, x2, x3, x4⟩ := e2 rfl
  cases hm _ _ x3
  have g0 := Gets.always (P := P) (R := fun cs => ∀ c' ∈ cs, c' ≠ c → P c') (by
    intro cs c0 h1 h2 c' hc' hne
    rcases List.mem_append.1 hc' with hc' | hc'
    · exact h1 c' hc' hne
    · cases List.mem_singleton.1 hc'; exact h2) (by intro c' hc'; cases hc') k1 ho.wf.alone hs1
    (fun u => trivial) (ho.empty _) x x1
  have g1 : Gets (fun cs => c ∈ cs ∧ ∀ c' ∈ cs, c' ≠ c → P c') (C.acted t s' (.answered .done held)) b
      { x with calls := some (cs ++ [c]) } := by
    refine ⟨?_, .inl ⟨_, rfl, by simp, ?_⟩⟩
    · show s'.builders[b]? = _
      rw [x4]
      exact List.getElem?_set_self (List.getElem?_eq_some_iff.1 x1).1
    · intro c' hc' hne
      rcases List.mem_append.1 hc' with hc' | hc'
      · rcases g0.2 with ⟨cs', y1, y2⟩ | ⟨y1, _⟩
        · rw [x2] at y1; cases y1; exact y2 c' hc' hne
        · rw [x2] at y1; cases y1
      · cases List.mem_singleton.1 hc'; exact (hne rfl).elim
  obtain ⟨y, hy, _⟩ := g1.kept (P := P) (by
    rintro cs c0 ⟨h1, h2⟩ h3
    refine ⟨List.mem_append_left _ h1, fun c' hc' hne => ?_⟩
    rcases List.mem_append.1 hc' with hc' | hc'
    · exact h2 c' hc' hne
    · cases List.mem_singleton.1 hc'; exact h3) k2 w2 hs3 o2
  exact ⟨y, hy⟩

/-- Only such changes are there. -/
theorem unedited {s : State K V L} (ho : Opened s)
    {evs : List (Conc.Event K V L)} {B : CState K V L} (hk : Kept { now := s } evs B) {b : Nat}
    (hs : Starts P b evs) {x : Builder K V} (hx : B.now.builders[b]? = some x) :
    Gets (fun cs => ∀ c ∈ cs, P c) B b x :=
  Gets.always (P := P) (R := fun cs => ∀ c ∈ cs, P c) (by
    intro cs c0 h1 h2 c' hc'
    rcases List.mem_append.1 hc' with hc' | hc'
    · exact h1 c' hc'
    · cases List.mem_singleton.1 hc'; exact h2) (by intro c' hc'; cases hc') hk ho.wf.alone hs
    (fun u => trivial) (ho.empty _) x hx

end

/-! ### The layer -/

theorem builderName_right {s s' : State K V L} {b n : Nat}
    (hs : Step s (.builderName b) (.name n) s') : ∃ x, s.builders[b]? = some x ∧ x.name = n := by
  cases hs with
  | builderName h => exact ⟨_, h, rfl⟩

/-- The layer of a builder. -/
theorem madeBy {s : State K V L} (ho : Opened s)
    {evs : List (Conc.Event K V L)} {B : CState K V L} (hk : Kept { now := s } evs B) {k b : Nat}
    (h : MadeBy evs k b) : ∃ x, B.now.builders[b]? = some x ∧ B.now.handles[k]? = some x.name ∧
      ∀ R y, Gets R B b y → y = x ∧ Made R B.now x.name x.parent := by
  obtain ⟨n, h1, h2⟩ := h
  obtain ⟨x, g1, rfl⟩ := builderName_right (pairs_kept hk ho.wf.alone (fun _ => trivial) _ _ h1 trivial)
  have g2 := name_right (pairs_kept hk ho.wf.alone (fun _ => trivial) _ _ h2 trivial)
  have w := CWf.kept hk ho.wf.alone
  have kn := w.now.handle g2
  refine ⟨x, g1, g2, fun R y hy => ?_⟩
  obtain ⟨y1, y2⟩ := hy
  rw [g1] at y1
  cases y1
  refine ⟨rfl, ?_⟩
  rcases y2 with ⟨cs, y2, _⟩ | ⟨_, ⟨u, cs, load, y2, _⟩ | y2⟩
  · exact ((w.now.unborn x (List.mem_of_getElem? g1) (by rw [y2]; simp)).1 kn).elim
  · obtain ⟨z, z1, _, z2, _⟩ := w.closing _ _ _ _ y2
    rw [g1] at z1
    cases z1
    exact (z2 kn).elim
  · exact y2

theorem create_once {q : Req K V L} (hq : q = .createBase ∨ ∃ h, q = .openWrite h)
    {past : List (State K V L)} {s s' : State K V L}
    {k : Nat} {p' : Conc.Pending K V L} (h : Effect past s (.asked q k) s' p') :
    ∃ r held, p' = .answered r held ∧ (∀ b, r = .builder b → ∃ x, s'.builders[b]? = some x ∧
      x.calls = some [] ∧ (q = .createBase → x.parent = none) ∧
      ∀ i, q = .openWrite i → ∃ n, s.handles[i]? = some n ∧ x.parent = some n) := by
  have last : ∀ y : Builder K V, (s.builders ++ [y])[s.builders.length]? = some y := by
    intro y; simp
  cases h with
  | once hs =>
    refine ⟨_, _, rfl, ?_⟩
    rintro b rfl
    cases hs with
    | createBase => exact ⟨_, last _, rfl, fun _ => rfl, by intro i e; cases e⟩
    | openWrite hn => exact ⟨_, last _, rfl, (by intro e; cases e), by intro i e; cases e; exact ⟨_, hn, rfl⟩⟩
  | close hc =>
    rcases hc with ⟨hc, _⟩ | ⟨hc, _⟩ <;> subst hc <;> rcases hq with hq | ⟨_, hq⟩ <;> cases hq
  | hide hr =>
    cases hr with
    | all => rcases hq with hq | ⟨_, hq⟩ <;> cases hq
    | upto _ _ hc =>
      rcases hc with hc | hc <;> subst hc <;> rcases hq with hq | ⟨_, hq⟩ <;> cases hq
  | again hr =>
    cases hr with
    | all => rcases hq with hq | ⟨_, hq⟩ <;> cases hq
    | upto _ _ hc =>
      rcases hc with hc | hc <;> subst hc <;> rcases hq with hq | ⟨_, hq⟩ <;> cases hq
  | _ => rcases hq with hq | ⟨_, hq⟩ <;> cases hq

theorem numbered_builder {i b : Nat} {r : Ans K V L} (h : Ans.builder b = CState.numbered i r) :
    r = .builder b := by
  unfold CState.numbered at h
  split at h
  · cases h
  · cases h
  · exact h.symm

/-- The parent of a builder. -/
theorem created {s : State K V L} (ho : Opened s)
    {evs : List (Conc.Event K V L)} {B : CState K V L} (hk : Kept { now := s } evs B) {b : Nat}
    {q : Req K V L} (hq : q = .createBase ∨ ∃ h, q = .openWrite h)
    (h1 : (q, .builder b) ∈ pairs (fun _ => none) evs) {x : Builder K V}
    (hx : B.now.builders[b]? = some x) :
    (q = .createBase → x.parent = none) ∧
    ∀ i, q = .openWrite i → ∃ n, B.now.handles[i]? = some n ∧ x.parent = some n := by
  obtain ⟨r0, held, i, hmo, hr, _⟩ := moment (c0 := q)
    (fun h => by obtain ⟨r, held, h1, _⟩ := create_once hq h; exact ⟨r, held, h1⟩) hk ho.wf.alone h1
  cases numbered_builder hr
  obtain ⟨evs1, evs2, C, t, k, new, s', rfl, k1, he, hg, k2⟩ := hmo
  have wC := CWf.kept k1 ho.wf.alone
  have w2 := wC.goes hg
  obtain ⟨_, _, e1, e2⟩ := create_once hq he
  cases e1
  obtain ⟨y, y1, y2, y3, y4⟩ := e2 b rfl
  have g1 : Gets (fun _ => True) (C.acted t s' (.answered (.builder b) held)) b y :=
    ⟨y1, .inl ⟨_, y2, trivial⟩⟩
  obtain ⟨z, z1, _, z3⟩ := g1.kept (P := fun _ => True) (fun _ _ _ _ => trivial) k2 w2
    (fun _ _ _ _ _ => trivial) (fun u => by
      rcases (C.acted t s' (.answered (.builder b) held)).calls u with _ | p
      · trivial
      · cases p <;> first | trivial | exact fun _ _ => trivial | exact fun _ _ _ => trivial)
  have := z1.1
  rw [hx] at this
  cases this
  refine ⟨fun e => z3.trans (y3 e), fun i e => ?_⟩
  obtain ⟨n, n1, n2⟩ := y4 i e
  obtain ⟨exc, gr⟩ := wC.grewGoes hg
  exact ⟨n, k2.handles w2 (gr.handle n1), z3.trans n2⟩

/-- What the layer below the builder has. -/
theorem before_right {s : State K V L} (ho : Opened s)
    {evs : List (Conc.Event K V L)} {B : CState K V L} (hk : Kept { now := s } evs B)
    {b : Nat} {t : VTriple K V} {v : Bool} (h : Before evs b t v) {x : Builder K V}
    (hx : B.now.builders[b]? = some x) : v = true ↔ B.now.log.below x.parent t := by
  rcases h with ⟨h, rfl⟩ | ⟨i, h, h2⟩
  · rw [(created ho hk (.inl rfl) h hx).1 rfl]
    exact ⟨(fun h => by cases h), fun h => False.elim h⟩
  · obtain ⟨n, h3, h4⟩ := (created ho hk (.inr ⟨i, rfl⟩) h hx).2 i rfl
    obtain ⟨m, c, g1, g2, g3⟩ := has_right (pairs_kept hk ho.wf.alone (fun _ => trivial) _ _ h2 trivial)
    rw [h3] at g1
    cases g1
    cases g2
    rw [h4]
    exact g3

/-! ### Commits -/

/-- How a call is related to the one that began. -/
def Work (b : Nat) (now : State K V L) (cur : Option (Req K V L)) : Option (Conc.Pending K V L) → Prop
  | none => True
  | some (.asked q _) => cur = some q
  | some (.closing b' _ load) => (load = true ∧ cur = some (.commit b')) ∨
      (load = false ∧ cur = some (.commitNoLoad b'))
  | some (.answered r held) => cur = some (.commit b) → made r = true →
      ∃ j x, r = .layer j ∧ now.builders[b]? = some x ∧ held = [x.name]
  | some _ => ∀ q, cur = some q → isCommit b q = false

/-- The call is a commit of the builder that has closed it. -/
def Spends (b : Nat) (cur : Option (Req K V L)) : Option (Conc.Pending K V L) → Prop
  | some (.closing _ _ _) => ∃ q, cur = some q ∧ isCommit b q = true
  | some (.answered r _) => (∃ q, cur = some q ∧ isCommit b q = true) ∧ made r = true
  | _ => False

theorem isCommit_iff {b : Nat} {q : Req K V L} :
    isCommit b q = true ↔ q = .commit b ∨ q = .commitNoLoad b := by
  cases q <;> simp [isCommit]

theorem made_numbered {n : Nat} {r : Ans K V L} : made (CState.numbered n r) = made r := by
  unfold CState.numbered
  split <;> rfl

/-- A step of a commit: it closes the builder, or goes on, or fails. -/
theorem commit_effect {b : Nat} {past : List (State K V L)} {s s' : State K V L}
    {p p' : Conc.Pending K V L} {cur : Option (Req K V L)} (he : Effect past s p s' p')
    (hw : Work b s cur (some p)) :
    Work b s' cur (some p') ∧ (Spends b cur (some p') → Spends b cur (some p) ∨
      ((∃ x, s.builders[b]? = some x ∧ x.calls ≠ none) ∧ ∃ x, s'.builders[b]? = some x ∧ x.calls = none)) := by
  have self : ∀ {b : Nat} {x y : Builder K V}, s.builders[b]? = some x →
      (s.builders.set b y)[b]? = some y := fun hx =>
    List.getElem?_set_self (List.getElem?_eq_some_iff.1 hx).1
  have roll : ∀ {q n upto}, Rolls s q n upto → isCommit b q = false := by
    intro q n upto h
    cases h with
    | all => rfl
    | upto _ _ hc => rcases hc with rfl | rfl <;> rfl
  have other : ∀ {q : Req K V L} {r : Ans K V L} {held}, cur = some q → isCommit b q = false →
      Work b s' cur (some (.answered r held)) ∧ (Spends b cur (some (.answered r held)) → False) := by
    intro q r held h1 h2
    constructor
    · intro h3
      rw [h1] at h3
      cases h3
      rw [isCommit_iff.2 (.inl rfl)] at h2
      cases h2
    · rintro ⟨⟨q', h3, h4⟩, _⟩
      rw [h1] at h3
      cases h3
      rw [h2] at h4
      cases h4
  cases he with
  | @once q k r s1 held hs hh =>
    have hcur : cur = some q := hw
    rcases hb : isCommit b q with _ | _
    · obtain ⟨h1, h2⟩ := other (r := r) (held := held) hcur hb
      exact ⟨h1, fun h => (h2 h).elim⟩
    · rcases isCommit_iff.1 hb with rfl | rfl
      · cases hs with
        | commit hx hc hi =>
          have hh' : [_] = held := List.append_cancel_left hh
          refine ⟨fun _ _ => ⟨_, _, rfl, self hx, hh'.symm⟩, fun _ => .inr ⟨⟨_, hx, ?_⟩, _, self hx, rfl⟩⟩
          rw [hc]; simp
        | rollupUptoNothing _ _ _ hc => rcases hc with hc | hc <;> cases hc
        | rollupUptoWrong _ _ _ _ _ hc => rcases hc with hc | hc <;> cases hc
        | rollupUpto _ _ _ _ _ _ _ hc => rcases hc with hc | hc <;> cases hc
        | commitTwice => exact ⟨(fun _ h => by cases h), fun h => by cases h.2⟩
      · cases hs with
        | commitNoLoad hx hc hi =>
          refine ⟨fun h => (by rw [hcur] at h; cases h), fun _ => .inr ⟨⟨_, hx, ?_⟩, _, self hx, rfl⟩⟩
          rw [hc]; simp
        | rollupUptoNothing _ _ _ hc => rcases hc with hc | hc <;> cases hc
        | rollupUptoWrong _ _ _ _ _ hc => rcases hc with hc | hc <;> cases hc
        | rollupUpto _ _ _ _ _ _ _ hc => rcases hc with hc | hc <;> cases hc
        | commitTwice => exact ⟨(fun _ h => by cases h), fun h => by cases h.2⟩
  | @close b' x cs load q k hc hx hcs =>
    have hcur : cur = some q := hw
    refine ⟨?_, ?_⟩
    · rcases hc with ⟨rfl, rfl⟩ | ⟨rfl, rfl⟩
      · exact .inl ⟨rfl, hcur⟩
      · exact .inr ⟨rfl, hcur⟩
    · rintro ⟨q', h1, h2⟩
      rw [hcur] at h1
      cases h1
      have : b' = b := by
        rcases hc with ⟨rfl, _⟩ | ⟨rfl, _⟩ <;> simpa [isCommit] using h2
      subst this
      exact .inr ⟨⟨x, hx, by rw [hcs]; simp⟩, _, self hx, rfl⟩
  | @write b' x cs load i r held hx hi hr =>
    refine ⟨?_, fun h => .inl h.1⟩
    intro h1 h2
    rcases hw with ⟨rfl, h3⟩ | ⟨_, h3⟩
    · rw [h1] at h3
      cases h3
      rcases hr with ⟨h4, _⟩ | ⟨_, rfl, rfl⟩
      · cases h4
      · exact ⟨0, x, rfl, hx, rfl⟩
    · rw [h1] at h3; cases h3
  | setHeadLate => obtain ⟨h1, h2⟩ := other hw rfl; exact ⟨h1, fun h => (h2 h).elim⟩
  | setHeadAgain => obtain ⟨h1, h2⟩ := other hw rfl; exact ⟨h1, fun h => (h2 h).elim⟩
  | versionAgain => obtain ⟨h1, h2⟩ := other hw rfl; exact ⟨h1, fun h => (h2 h).elim⟩
  | hide hr =>
    refine ⟨?_, fun h => h.elim⟩
    intro q hq
    rw [show cur = _ from hw] at hq
    cases hq
    exact roll hr
  | again hr => obtain ⟨h1, h2⟩ := other hw (roll hr); exact ⟨h1, fun h => (h2 h).elim⟩
  | readDelta =>
    refine ⟨?_, fun h => h.elim⟩
    intro q hq
    rw [show cur = _ from hw] at hq
    cases hq
    rfl
  | readDiff =>
    refine ⟨?_, fun h => h.elim⟩
    intro q hq
    rw [show cur = _ from hw] at hq
    cases hq
    rfl
  | apply => exact ⟨hw, fun h => h.elim⟩
  | applySkip => exact ⟨hw, fun h => h.elim⟩
  | settle =>
    rcases hq : cur with _ | q
    · exact ⟨(fun h => by cases h), fun h => by obtain ⟨⟨_, h, _⟩, _⟩ := h; cases h⟩
    · rw [← hq]
      obtain ⟨h1, h2⟩ := other hq (hw q hq)
      exact ⟨h1, fun h => (h2 h).elim⟩
  | applied =>
    rcases hq : cur with _ | q
    · exact ⟨(fun h => by cases h), fun h => by obtain ⟨⟨_, h, _⟩, _⟩ := h; cases h⟩
    · rw [← hq]
      obtain ⟨h1, h2⟩ := other hq (hw q hq)
      exact ⟨h1, fun h => (h2 h).elim⟩

/-- The names of builders stay. -/
theorem Work.grew {exc : Nat → Prop} {b : Nat} {s s' : State K V L} (hg : Grew exc s s')
    {cur : Option (Req K V L)} {p : Option (Conc.Pending K V L)} (h : Work b s cur p) :
    Work b s' cur p := by
  cases p with
  | none => trivial
  | some p =>
    cases p with
    | answered r held =>
      intro h1 h2
      obtain ⟨j, x, h3, h4, h5⟩ := h h1 h2
      obtain ⟨y, h6, h7, _⟩ := hg.builders b x h4
      exact ⟨j, y, h3, h6, by rw [h7]; exact h5⟩
    | _ => exact h

/-- The successful commits of a builder. -/
def successes (b : Nat) (l : List (Req K V L × Ans K V L)) : Nat :=
  l.countP fun x => isCommit b x.1 && made x.2

/-- Who has closed the builder, and whether its commit has ended. -/
structure Spending (b : Nat) (A : CState K V L) (cur : Nat → Option (Req K V L)) (spent : Nat) : Prop where
  work : ∀ u, Work b A.now (cur u) (A.calls u)
  one : ∀ u v, Spends b (cur u) (A.calls u) → Spends b (cur v) (A.calls v) → u = v
  closed : (∃ u, Spends b (cur u) (A.calls u)) ∨ 0 < spent →
    ∃ x, A.now.builders[b]? = some x ∧ x.calls = none
  ended : 0 < spent → ∀ u, ¬ Spends b (cur u) (A.calls u)
  le : spent ≤ 1

/-- A builder keeps its name. -/
theorem Kept.builder {A B : CState K V L} {evs : List (Conc.Event K V L)} (hk : Kept A evs B) {b : Nat} :
    ∀ {x : Builder K V}, CWf A → A.now.builders[b]? = some x →
      ∃ y, B.now.builders[b]? = some y ∧ y.name = x.name := by
  induction hk with
  | nil => exact fun _ h => ⟨_, h, rfl⟩
  | cons hg _ ih =>
    intro x hw h
    obtain ⟨exc, hgr⟩ := hw.grewGoes hg
    obtain ⟨y, h1, h2, _⟩ := hgr.builders _ _ h
    obtain ⟨z, h3, h4⟩ := ih (hw.goes hg) h1
    exact ⟨z, h3, h4.trans h2⟩

theorem successes_append (b : Nat) (l m : List (Req K V L × Ans K V L)) :
    successes b (l ++ m) = successes b l + successes b m := by
  simp [successes, List.countP_append]

theorem commits_kept {A B : CState K V L} {evs : List (Conc.Event K V L)} (hk : Kept A evs B) {b : Nat} :
    ∀ {cur : Nat → Option (Req K V L)} {spent : Nat}, CWf A → Spending b A cur spent →
      spent + successes b (pairs cur evs) ≤ 1 ∧
      ∀ r, (.commit b, r) ∈ pairs cur evs → made r = true →
        ∃ j x, r = .layer j ∧ B.now.builders[b]? = some x ∧ B.now.handles[j]? = some x.name := by
  induction hk with
  | nil => exact fun _ h => ⟨h.le, fun r hr => by cases hr⟩
  | @cons A e A' rest B hg hk ih =>
    intro cur spent hw h
    have hw' := hw.goes hg
    cases hg with
    | @inv t c ht =>
      refine ih (cur := fun u => if u = t then some c else cur u) hw' ?_
      have sp : ∀ u, Spends b (if u = t then some c else cur u)
          (if u = t then some (.asked c A.past.length) else A.calls u) → u ≠ t ∧
          Spends b (cur u) (A.calls u) := by
        intro u hu
        by_cases hut : u = t
        · simp only [if_pos hut] at hu; exact hu.elim
        · simp only [if_neg hut] at hu; exact ⟨hut, hu⟩
      exact {
        work := by
          intro u
          by_cases hut : u = t
          · simp only [if_pos hut]; rfl
          · simp only [if_neg hut]; exact h.work u
        one := fun u v hu hv => h.one u v (sp u hu).2 (sp v hv).2
        closed := fun hc => h.closed (hc.imp_left fun ⟨u, hu⟩ => ⟨u, (sp u hu).2⟩)
        ended := fun hs u hu => h.ended hs u (sp u hu).2
        le := h.le }
    | skip => exact ih hw' h
    | @act t new p s' p' hp hc he hf =>
      refine ih (cur := cur) hw' ?_
      have hgr := (hw.grew hp he).1
      have hwt := h.work t
      rw [hp] at hwt
      obtain ⟨w1, w2⟩ := commit_effect he hwt
      have keep : ∀ x, A.now.builders[b]? = some x ∧ x.calls = none →
          ∃ x, s'.builders[b]? = some x ∧ x.calls = none := by
        rintro x ⟨h1, h2⟩
        obtain ⟨y, h3, _, _, h4⟩ := hgr.builders b x h1
        exact ⟨y, h3, h4 h2⟩
      /- Either those that have closed it are the same, or nobody had. -/
      have sp : ∀ u, Spends b (cur u) (if u = t then some p' else A.calls u) →
          Spends b (cur u) (A.calls u) ∨ (u = t ∧
            (∃ x, A.now.builders[b]? = some x ∧ x.calls ≠ none) ∧
            ∃ x, s'.builders[b]? = some x ∧ x.calls = none) := by
        intro u hu
        by_cases hut : u = t
        · subst hut
          rw [if_pos rfl] at hu
          rw [hp]
          exact (w2 hu).imp_right fun h => ⟨rfl, h⟩
        · rw [if_neg hut] at hu; exact .inl hu
      have fresh : (∃ x, A.now.builders[b]? = some x ∧ x.calls ≠ none) →
          (∃ u, Spends b (cur u) (A.calls u)) ∨ 0 < spent → False := by
        rintro ⟨x, x1, x2⟩ hs
        obtain ⟨y, y1, y2⟩ := h.closed hs
        rw [x1] at y1
        cases y1
        exact x2 y2
      exact {
        work := by
          intro u
          by_cases hut : u = t
          · subst hut; simp only [if_true]; exact w1
          · simp only [if_neg hut]; exact (h.work u).grew hgr
        one := by
          intro u v hu hv
          rcases sp u hu with hu' | ⟨hu', hx, _⟩
          · rcases sp v hv with hv' | ⟨_, hx, _⟩
            · exact h.one u v hu' hv'
            · exact (fresh hx (.inl ⟨u, hu'⟩)).elim
          · rcases sp v hv with hv' | ⟨hv', _⟩
            · exact (fresh hx (.inl ⟨v, hv'⟩)).elim
            · exact hu'.trans hv'.symm
        closed := by
          rintro (⟨u, hu⟩ | hs)
          · rcases sp u hu with hu | ⟨_, _, hx⟩
            · obtain ⟨x, hx⟩ := h.closed (.inl ⟨u, hu⟩)
              exact keep x hx
            · exact hx
          · obtain ⟨x, hx⟩ := h.closed (.inr hs)
            exact keep x hx
        ended := by
          intro hs u hu
          rcases sp u hu with hu | ⟨_, hx, _⟩
          · exact h.ended hs u hu
          · exact fresh hx (.inr hs)
        le := h.le }
    | @ret t r0 held hp =>
      have hgr : Grew (fun _ => False) A.now { A.now with handles := A.now.handles ++ held } :=
        Grew.refl.handed (List.prefix_append ..)
      have hwt := h.work t
      rw [hp] at hwt
      have sp : ∀ u, Spends b (cur u) (if u = t then none else A.calls u) → u ≠ t ∧
          Spends b (cur u) (A.calls u) := by
        intro u hu
        by_cases hut : u = t
        · simp only [if_pos hut] at hu; exact hu.elim
        · simp only [if_neg hut] at hu; exact ⟨hut, hu⟩
      have hnew : ∀ spent', spent' ≤ 1 → (0 < spent' → 0 < spent ∨ Spends b (cur t) (A.calls t)) →
          Spending b { A with now := { A.now with handles := A.now.handles ++ held }
                              calls := fun u => if u = t then none else A.calls u } cur spent' := by
        intro spent' h1 h2
        exact {
          work := by
            intro u
            by_cases hut : u = t
            · simp only [if_pos hut]; trivial
            · simp only [if_neg hut]; exact (h.work u).grew hgr
          one := fun u v hu hv => h.one u v (sp u hu).2 (sp v hv).2
          closed := by
            rintro (⟨u, hu⟩ | hs)
            · exact h.closed (.inl ⟨u, (sp u hu).2⟩)
            · rcases h2 hs with hs | hs
              · exact h.closed (.inr hs)
              · exact h.closed (.inl ⟨t, hs⟩)
          ended := by
            intro hs u hu
            rcases h2 hs with hs | hs
            · exact h.ended hs u (sp u hu).2
            · exact (sp u hu).1 (h.one u t (sp u hu).2 hs)
          le := h1 }
      have first : ∀ r, (.commit b, r) ∈ (cur t).toList.map (fun c => (c, CState.numbered A.now.handles.length r0)) →
          made r = true → ∃ j x, r = .layer j ∧ B.now.builders[b]? = some x ∧
            B.now.handles[j]? = some x.name := by
        intro r hr hm
        obtain ⟨c, h1, h2⟩ := List.mem_map.1 hr
        have h1 : cur t = some c := by simpa using h1
        cases h2
        rw [made_numbered] at hm
        obtain ⟨j, x, rfl, h3, rfl⟩ := hwt h1 hm
        obtain ⟨y, h4, h5⟩ := hk.builder hw' (show _ = _ from h3)
        refine ⟨_, y, rfl, h4, ?_⟩
        rw [h5]
        exact hk.handles hw' (by simp)
      by_cases hs : Spends b (cur t) (A.calls t)
      · have h0 : spent = 0 := Nat.eq_zero_of_not_pos fun h1 => h.ended h1 t hs
        subst h0
        obtain ⟨i1, i2⟩ := ih (cur := cur) hw' (hnew 1 (Nat.le_refl _) fun _ => .inr hs)
        refine ⟨?_, fun r hr hm => ?_⟩
        · have one : successes b ((cur t).toList.map
              (fun c => (c, CState.numbered A.now.handles.length r0))) ≤ 1 := by
            refine Nat.le_trans List.countP_le_length ?_
            cases cur t <;> simp
          show 0 + successes b (_ ++ _) ≤ 1
          rw [successes_append]
          omega
        · rcases List.mem_append.1 hr with hr | hr
          · exact first r hr hm
          · exact i2 r hr hm
      · obtain ⟨i1, i2⟩ := ih (cur := cur) hw' (hnew spent h.le fun h1 => .inl h1)
        refine ⟨?_, fun r hr hm => ?_⟩
        · have no : successes b ((cur t).toList.map
              (fun c => (c, CState.numbered A.now.handles.length r0))) = 0 := by
            refine List.countP_eq_zero.2 fun x hx h2 => hs ?_
            obtain ⟨c, h3, rfl⟩ := List.mem_map.1 hx
            rw [Bool.and_eq_true, made_numbered] at h2
            rw [hp]
            exact ⟨⟨c, by simpa using h3, h2.1⟩, h2.2⟩
          show spent + successes b (_ ++ _) ≤ 1
          rw [successes_append, no, Nat.zero_add]
          exact i1
        · rcases List.mem_append.1 hr with hr | hr
          · exact first r hr hm
          · exact i2 r hr hm

end Verif.Conc
