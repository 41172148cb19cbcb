import Verif.Lemmas.Lives
import Verif.Lemmas.WorldMore

/-!
The moment at which a call takes effect, and the heads of a graph that is moved with `set_head`
only: each is on the line of those after it.
-/

namespace Verif

theorem Spec.History.Ancestor.then {T : Type} {log : Spec.History T} {a b c : Nat}
    (h1 : log.Ancestor a b) (h2 : log.Ancestor b c) : log.Ancestor a c := by
  induction h2 with
  | self => exact h1
  | up hp _ ih => exact .up hp ih

/-- The ancestors of a layer are in one line. -/
theorem Spec.History.Ancestor.total {T : Type} {log : Spec.History T} {a b n : Nat}
    (h1 : log.Ancestor a n) (h2 : log.Ancestor b n) : log.Ancestor a b ∨ log.Ancestor b a := by
  induction h1 with
  | self => exact .inr h2
  | up hp h3 ih =>
    cases h2 with
    | self => exact .inl (.up hp h3)
    | up hp' h4 =>
      rw [hp] at hp'
      cases hp'
      exact ih h4

namespace Conc

open Spec Api

set_option linter.unusedSectionVars false

variable {K V L : Type} [DecidableEq L]

/-! ### Moments -/

/-- A call that has begun, or one that is not of interest. -/
def Begun (c0 : Req K V L) (Q : Ans K V L → List Nat → Prop) (cur : Option (Req K V L)) :
    Option (Conc.Pending K V L) → Prop
  | none => True
  | some (.asked c _) => cur = none ∨ cur = some c
  | some (.answered r held) => cur = some c0 → Q r held
  | some _ => cur ≠ some c0

theorem Kept.then {A B C : CState K V L} {evs evs' : List (Conc.Event K V L)} (h : Kept A evs B)
    (h' : Kept B evs' C) : Kept A (evs ++ evs') C := by
  induction h with
  | nil => exact h'
  | cons hg _ ih => exact .cons hg (ih h')

/-- The state after a step of the call `t`. -/
def CState.acted (C : CState K V L) (t : Nat) (s' : State K V L) (p' : Conc.Pending K V L) :
    CState K V L :=
  { now := s', past := C.now :: C.past, calls := fun u => if u = t then some p' else C.calls u }

/-- In what happened from `A` to `B` the call `c0` took effect with this answer. -/
def Moment (A : CState K V L) (evs : List (Conc.Event K V L)) (B : CState K V L) (c0 : Req K V L)
    (r : Ans K V L) (held : List Nat) : Prop :=
  ∃ evs1 evs2 C t k new s', evs = evs1 ++ .act t new :: evs2 ∧ Kept A evs1 C ∧
    Effect C.past C.now (.asked c0 k) s' (.answered r held) ∧
    Goes C (.act t new) (C.acted t s' (.answered r held)) ∧
    Kept (C.acted t s' (.answered r held)) evs2 B

theorem Moment.then {A B B' : CState K V L} {evs evs' : List (Conc.Event K V L)}
    {c0 : Req K V L} {r : Ans K V L} {held : List Nat} (h : Moment A evs B c0 r held)
    (hk : Kept B evs' B') : Moment A (evs ++ evs') B' c0 r held := by
  obtain ⟨evs1, evs2, C, t, k, new, s', rfl, h1, h2, h3, h4⟩ := h
  exact ⟨evs1, evs2 ++ evs', C, t, k, new, s', by simp, h1, h2, h3, h4.then hk⟩

/-- A call that takes effect at once and has ended has taken effect at some moment. -/
theorem moments {c0 : Req K V L}
    (hone : ∀ {past : List (State K V L)} {s k s' p'}, Effect past s (.asked c0 k) s' p' →
      ∃ r held, p' = .answered r held)
    {A0 A B : CState K V L} {evs : List (Conc.Event K V L)} (hk : Kept A evs B) :
    ∀ {cur : Nat → Option (Req K V L)} {before : List (Conc.Event K V L)}, CWf A →
      Kept A0 before A → (∀ t, Begun c0 (Moment A0 before A c0) (cur t) (A.calls t)) →
      ∀ r, (c0, r) ∈ pairs cur evs →
      ∃ r0 held i, Moment A0 (before ++ evs) B c0 r0 held ∧ r = CState.numbered i r0 ∧
        ∀ (j : Nat) (m : Nat), held[j]? = some m → B.now.handles[i + j]? = some m := by
  induction hk with
  | nil => intro cur before _ _ _ r hm; cases hm
  | @cons A e A' rest B hg hk ih =>
    intro cur before hw hb ht r hm
    have hw' := hw.goes hg
    have hb' : Kept A0 (before ++ [e]) A' := hb.then (.cons hg .nil)
    have hsn : before ++ e :: rest = before ++ [e] ++ rest := by simp
    have later : ∀ {c p}, Begun c0 (Moment A0 before A c0) c p →
        Begun c0 (Moment A0 (before ++ [e]) A' c0) c p := by
      intro c p h
      cases p with
      | none => trivial
      | some p =>
        cases p with
        | answered r held => exact fun h1 => (h h1).then (.cons hg .nil)
        | _ => exact h
    cases hg with
    | @inv t c1 h0 =>
      rw [hsn]
      refine ih (cur := fun u => if u = t then some c1 else cur u) hw' hb' ?_ r hm
      intro u
      by_cases hu : u = t
      · subst hu
        simp only [if_true]
        exact .inr rfl
      · simp only [if_neg hu]
        exact later (ht u)
    | skip =>
      rw [hsn]
      exact ih hw' hb' (fun u => later (ht u)) r hm
    | @act t new p s' p' hp hc he hf =>
      rw [hsn]
      refine ih (cur := cur) hw' hb' ?_ r hm
      intro u
      by_cases hu : u = t
      · subst hu
        simp only [if_true]
        have htt := ht u
        rw [hp] at htt
        have other : cur u ≠ some c0 → Begun c0 (Moment A0 (before ++ [.act u new])
            { now := s', past := A.now :: A.past, calls := fun v =>
              if v = u then some p' else A.calls v } c0) (cur u) (some p') := by
          intro hne
          cases p' with
          | asked c' k' => cases he
          | answered r held => exact fun h => (hne h).elim
          | _ => exact hne
        cases p with
        | asked c k =>
          by_cases hc0 : c = c0
          · subst hc0
            obtain ⟨r1, held, rfl⟩ := hone he
            exact fun _ => ⟨before, [], A, u, k, new, s', rfl, hb, he, .act hp hc he hf, .nil⟩
          · refine other ?_
            rcases htt with htt | htt <;> rw [htt]
            · exact fun h => by cases h
            · exact fun h => hc0 (Option.some.inj h)
        | answered r held => cases he
        | _ => exact other htt
      · simp only [if_neg hu]
        exact later (ht u)
    | @ret t r0 held hp =>
      have htt := ht t
      rw [hp] at htt
      rcases List.mem_append.1 hm with hm | hm
      · obtain ⟨c1, hc1, he⟩ := List.mem_map.1 hm
        have hc1 : cur t = some c1 := by simpa using hc1
        cases he
        refine ⟨r0, held, A.now.handles.length, ?_, rfl, fun j m hj => ?_⟩
        · exact (htt hc1).then (.cons (.ret hp) hk)
        · refine hk.handles hw' ?_
          change (A.now.handles ++ held)[A.now.handles.length + j]? = some m
          rw [List.getElem?_append_right (Nat.le_add_right ..), Nat.add_sub_cancel_left]
          exact hj
      · rw [hsn]
        refine ih (cur := cur) hw' hb' ?_ r hm
        intro u
        by_cases hu : u = t
        · simp only [if_pos hu]; trivial
        · simp only [if_neg hu]
          exact later (ht u)

/-- For calls that begin in `evs`. -/
theorem moment {c0 : Req K V L}
    (hone : ∀ {past : List (State K V L)} {s k s' p'}, Effect past s (.asked c0 k) s' p' →
      ∃ r held, p' = .answered r held)
    {A B : CState K V L} {evs : List (Conc.Event K V L)} (hk : Kept A evs B) (hw : CWf A)
    {r : Ans K V L} (hr : (c0, r) ∈ pairs (fun _ => none) evs) :
    ∃ r0 held i, Moment A evs B c0 r0 held ∧ r = CState.numbered i r0 ∧
      ∀ (j : Nat) (m : Nat), held[j]? = some m → B.now.handles[i + j]? = some m := by
  refine moments hone hk (before := []) hw .nil (fun t => ?_) r hr
  rcases A.calls t with _ | p
  · trivial
  · cases p with
    | asked c k => exact .inl rfl
    | answered r held => exact fun h => by cases h
    | _ => exact fun h => by cases h

/-! ### Heads that only go on -/

variable {l : L}

/-- The graph went on from `s` to `s'`: it has the same head and version, or a later version and a
head on top of the one before. -/
def Onward (l : L) (s s' : State K V L) : Prop :=
  ∀ o v, s.graphs l = some (o, v) → ∃ o' v', s'.graphs l = some (o', v') ∧ v ≤ v' ∧
    (v = v' → o' = o) ∧ ∀ n, o = some n → ∃ n', o' = some n' ∧ s'.log.Ancestor n n'

theorem Onward.same {s s' : State K V L} (h : s'.graphs l = s.graphs l) : Onward l s s' :=
  fun o v h1 => ⟨o, v, h.trans h1, Nat.le_refl _, fun _ => rfl, fun n hn => ⟨n, hn, .self _⟩⟩

theorem Stays.ancestor {s s' : State K V L} (h : Stays s s') (hw : Wf s) {a n : Nat}
    (hn : s.log.known n) (ha : s.log.Ancestor a n) : s'.log.Ancestor a n := by
  induction ha with
  | self => exact .self _
  | up hp _ ih => exact .up ((h.parent _ hn).trans hp) (ih (hw.parents _ _ hp))

theorem Stays.ancestor_back {s s' : State K V L} (h : Stays s s') (hw : Wf s) {a n : Nat}
    (hn : s.log.known n) (ha : s'.log.Ancestor a n) : s.log.Ancestor a n := by
  induction ha with
  | self => exact .self _
  | up hp _ ih =>
    rw [h.parent _ hn] at hp
    exact .up hp (ih (hw.parents _ _ hp))

theorem Onward.trans {s s' s'' : State K V L} (h1 : Onward l s s') (h2 : Onward l s' s'')
    (hs : Stays s' s'') (hw : Wf s') : Onward l s s'' := by
  intro o v hg
  obtain ⟨o1, v1, g1, g2, g3, g4⟩ := h1 o v hg
  obtain ⟨o2, v2, k1, k2, k3, k4⟩ := h2 o1 v1 g1
  refine ⟨o2, v2, k1, Nat.le_trans g2 k2, ?_, ?_⟩
  · intro he
    rw [k3 (by omega), g3 (by omega)]
  · intro n hn
    obtain ⟨n1, rfl, e2⟩ := g4 n hn
    obtain ⟨n2, rfl, e4⟩ := k4 n1 rfl
    exact ⟨n2, rfl, (hs.ancestor hw (hw.heads _ _ _ g1) e2).then e4⟩

/-- A step of a call by which the graph only goes on. -/
theorem effect_onward {past : List (State K V L)} {s s' : State K V L} {p p' : Conc.Pending K V L}
    (he : Effect past s p s' p') (hp : ∀ q ∈ past, Onward l q s)
    (hc : ∀ c k, p = .asked c k → changes l c → gentle c) : Onward l s s' := by
  by_cases hch : ∃ c k, p = .asked c k ∧ changes l c
  · obtain ⟨c, k, rfl, hl⟩ := hch
    have hgen := hc c k rfl hl
    cases c with
    | createGraph l' =>
      cases (show l' = l from hl)
      cases he with
      | once hs hh =>
        cases hs with
        | createGraph h => intro o v h1; rw [h] at h1; cases h1
        | createGraphTwice => exact .same rfl
        | rollupUptoNothing _ _ _ hc => rcases hc with hc | hc <;> cases hc
        | rollupUptoWrong _ _ _ _ _ hc => rcases hc with hc | hc <;> cases hc
        | rollupUpto _ _ _ _ _ _ _ hc => rcases hc with hc | hc <;> cases hc
        | commitTwice _ _ hc => rcases hc with hc | hc <;> cases hc
      | close hc => rcases hc with ⟨hc, _⟩ | ⟨hc, _⟩ <;> cases hc
      | hide hr => cases hr with | upto _ _ hc => rcases hc with hc | hc <;> cases hc
      | again hr => cases hr with | upto _ _ hc => rcases hc with hc | hc <;> cases hc
    | setHead l' i =>
      cases (show l' = l from hl)
      have put : ∀ {n o v} {x : List Nat}, s.graphs l = some (o, v) →
          (∀ r, o = some r → s.log.Ancestor r n) →
          Onward l s { s.setGraph l (some (some n, v + 1)) with handles := x } := by
        intro n o v x h1 h2 o1 v1 h3
        rw [h1] at h3
        cases h3
        refine ⟨some n, v + 1, ?_, Nat.le_succ _, fun h => by omega, fun m hm => ⟨n, rfl, h2 m hm⟩⟩
        simp [State.setGraph]
      cases he with
      | once hs hh =>
        cases hs with
        | setHeadMissing => exact .same rfl
        | setHead h1 _ h2 => exact put h1 h2
        | setHeadRefused => exact .same rfl
        | rollupUptoNothing _ _ _ hc => rcases hc with hc | hc <;> cases hc
        | rollupUptoWrong _ _ _ _ _ hc => rcases hc with hc | hc <;> cases hc
        | rollupUpto _ _ _ _ _ _ _ hc => rcases hc with hc | hc <;> cases hc
        | commitTwice _ _ hc => rcases hc with hc | hc <;> cases hc
      | setHeadLate => exact .same rfl
      | @setHeadAgain _ _ n k o o' v q h1 h2 h3 h4 h5 =>
        refine put (x := s.handles) h2 ?_
        obtain ⟨⟨p, h6, h7⟩, h8⟩ := h3
        rcases List.mem_cons.1 h6 with rfl | h6
        · rw [h2] at h7
          cases h7
          exact h8
        · obtain ⟨o1, v1, g1, g2, g3, _⟩ := hp p (List.mem_of_mem_take h6) o' v h7
          rw [h2] at g1
          cases g1
          rw [g3 rfl]
          exact h8
      | close hc => rcases hc with ⟨hc, _⟩ | ⟨hc, _⟩ <;> cases hc
      | hide hr => cases hr with | upto _ _ hc => rcases hc with hc | hc <;> cases hc
      | again hr => cases hr with | upto _ _ hc => rcases hc with hc | hc <;> cases hc
    | _ => exact hgen.elim
  · exact .same (effect_quiet he fun c k h1 h2 => hch ⟨c, k, h1, h2⟩)

/-- What is true while the graph only goes on. -/
structure Going (l : L) (A : CState K V L) : Prop where
  wf : CWf A
  past : ∀ p ∈ A.past, Onward l p A.now
  calls : ∀ t c k, A.calls t = some (.asked c k) → changes l c → gentle c

theorem Wf.going {s : State K V L} (h : Wf s) : Going l ({ now := s } : CState K V L) :=
  { wf := h.alone
    past := by intro p hp; cases hp
    calls := by intro t c k h; cases h }

theorem Going.goes {A A' : CState K V L} {e : Conc.Event K V L} (h : Going l A) (hg : Goes A e A')
    (he : ∀ t c, e = .inv t c → changes l c → gentle c) : Going l A' ∧ Onward l A.now A'.now := by
  have hw := h.wf.goes hg
  obtain ⟨exc, hgr⟩ := h.wf.grewGoes hg
  have hst := hgr.stays
  have on : Onward l A.now A'.now := by
    cases hg with
    | inv => exact .same rfl
    | skip => exact .same rfl
    | ret => exact .same rfl
    | act h1 h2 h3 _ => exact effect_onward h3 h.past (by rintro c k rfl; exact h.calls _ c k h1)
  refine ⟨⟨hw, ?_, ?_⟩, on⟩
  · intro p hp
    have : p ∈ A.past ∨ p = A.now := by
      cases hg with
      | act => exact (List.mem_cons.1 hp).symm
      | _ => exact .inl hp
    rcases this with hp | rfl
    · exact (h.past p hp).trans on hst h.wf.now
    · exact on
  · intro t c k hc hl
    cases hg with
    | @inv t' c' h0 =>
      by_cases ht : t = t'
      · simp only [if_pos ht] at hc
        cases hc
        exact he _ _ rfl hl
      · simp only [if_neg ht] at hc
        exact h.calls t c k hc hl
    | skip => exact h.calls t c k hc hl
    | @act t' _ _ _ p' h1 h2 h3 _ =>
      by_cases ht : t = t'
      · simp only [if_pos ht] at hc
        cases hc
        cases h3
      · simp only [if_neg ht] at hc
        exact h.calls t c k hc hl
    | @ret t' _ _ _ =>
      by_cases ht : t = t'
      · simp only [if_pos ht] at hc
        cases hc
      · simp only [if_neg ht] at hc
        exact h.calls t c k hc hl

theorem Going.kept {A B : CState K V L} {evs : List (Conc.Event K V L)} (hk : Kept A evs B) :
    Going l A → Careful l evs → Going l B ∧ Onward l A.now B.now ∧ Stays A.now B.now := by
  induction hk with
  | nil => exact fun h _ => ⟨h, .same rfl, .refl⟩
  | cons hg hk ih =>
    intro h hc
    obtain ⟨h1, h2⟩ := h.goes hg (by rintro t c rfl; exact hc t c (List.mem_cons_self ..))
    obtain ⟨h3, h4, h5⟩ := ih h1 fun t c hm => hc t c (List.mem_cons_of_mem _ hm)
    obtain ⟨exc, h6⟩ := h.wf.grewGoes hg
    exact ⟨h3, h2.trans h4 h5 h1.wf.now, h6.stays.trans h5⟩

theorem Going.lives {s s' : State K V L} {evss : List (List (Conc.Event K V L))}
    (hl : LivesKept s evss s') : Wf s → (∀ evs ∈ evss, Careful l evs) →
      Wf s' ∧ Onward l s s' ∧ Stays s s' := by
  induction hl with
  | nil => exact fun h _ => ⟨h, .same rfl, .refl⟩
  | @stop s evs B s1 rest s' h1 h2 _ ih =>
    intro hw hc
    obtain ⟨h3, h4, h5⟩ := Going.kept (l := l) h1 hw.going (hc _ (List.mem_cons_self ..))
    have hw1 := h2.wf h3.wf.now
    obtain ⟨h6, h7, h8⟩ := ih hw1 fun evs he => hc evs (List.mem_cons_of_mem _ he)
    have h9 : Onward l B.now s1 := .same (by obtain ⟨lost, rfl, _⟩ := h2; rfl)
    exact ⟨h6, (h4.trans h9 h2.stays h3.wf.now).trans h7 h8 hw1, (h5.trans h2.stays).trans h8⟩

theorem Careful.left {a b : List (Conc.Event K V L)} (h : Careful l (a ++ b)) : Careful l a :=
  fun t c hm => h t c (List.mem_append_left _ hm)

theorem Careful.right {a b : List (Conc.Event K V L)} (h : Careful l (a ++ b)) : Careful l b :=
  fun t c hm => h t c (List.mem_append_right _ hm)

/-- `head` and `set_head` take effect at once. -/
theorem head_once {past : List (State K V L)} {s s' : State K V L} {k : Nat}
    {p' : Conc.Pending K V L} (he : Effect past s (.asked (.head l) k) s' p') :
    ∃ r held, p' = .answered r held := by
  cases he with
  | once => exact ⟨_, _, rfl⟩
  | close hc => rcases hc with ⟨hc, _⟩ | ⟨hc, _⟩ <;> cases hc
  | hide hr => cases hr with | upto _ _ hc => rcases hc with hc | hc <;> cases hc
  | again => exact ⟨_, _, rfl⟩

theorem setHead_once {past : List (State K V L)} {s s' : State K V L} {k i : Nat}
    {p' : Conc.Pending K V L} (he : Effect past s (.asked (.setHead l i) k) s' p') :
    ∃ r held, p' = .answered r held := by
  cases he with
  | once => exact ⟨_, _, rfl⟩
  | setHeadLate => exact ⟨_, _, rfl⟩
  | setHeadAgain => exact ⟨_, _, rfl⟩
  | close hc => rcases hc with ⟨hc, _⟩ | ⟨hc, _⟩ <;> cases hc
  | hide hr => cases hr with | upto _ _ hc => rcases hc with hc | hc <;> cases hc
  | again => exact ⟨_, _, rfl⟩

theorem setHead_effect {past : List (State K V L)} {s s' : State K V L} {k i : Nat}
    {held : List Nat}
    (he : Effect past s (.asked (.setHead l i) k) s' (.answered (.flag true) held)) :
    ∃ n o v, s.handles[i]? = some n ∧ s.graphs l = some (o, v) ∧
      s'.graphs l = some (some n, v + 1) := by
  cases he with
  | once hs hh =>
    cases hs with
    | setHead h1 h2 h3 => exact ⟨_, _, _, h2, h1, by simp [State.setGraph]⟩
  | setHeadAgain h1 h2 h3 h4 h5 => exact ⟨_, _, _, h1, h2, by simp [State.setGraph]⟩

theorem head_effect {past : List (State K V L)} {s s' : State K V L} {k : Nat} {r : Ans K V L}
    {held : List Nat} (he : Effect past s (.asked (.head l) k) s' (.answered r held)) :
    s'.graphs l = s.graphs l ∧
    ((s.graphs l = none ∧ r = .failed) ∨ (∃ v, s.graphs l = some (none, v) ∧ r = .head none v) ∨
      ∃ n v j, s.graphs l = some (some n, v) ∧ r = .head (some j) v ∧ held = [n]) := by
  cases he with
  | once hs hh =>
    cases hs with
    | headMissing h => exact ⟨rfl, .inl ⟨h, rfl⟩⟩
    | headNone h => exact ⟨rfl, .inr (.inl ⟨_, h, rfl⟩)⟩
    | @head _ n v h =>
      exact ⟨rfl, .inr (.inr ⟨_, _, _, h, rfl,
        (List.append_cancel_left (hh : s.handles ++ [n] = _)).symm⟩)⟩
    | rollupUptoNothing _ _ _ hc => rcases hc with hc | hc <;> cases hc
    | rollupUptoWrong _ _ _ _ _ hc => rcases hc with hc | hc <;> cases hc
    | rollupUpto _ _ _ _ _ _ _ hc => rcases hc with hc | hc <;> cases hc
    | commitTwice _ _ hc => rcases hc with hc | hc <;> cases hc
  | again hr => cases hr with | upto _ _ hc => rcases hc with hc | hc <;> cases hc

/-- The graph goes on up to the moment of a call, and from there on. -/
theorem Moment.going {A B : CState K V L} {evs : List (Conc.Event K V L)} {c0 : Req K V L}
    {r : Ans K V L} {held : List Nat} (hm : Moment A evs B c0 r held) (h : Going l A)
    (hc : Careful l evs) : ∃ past s k s', Effect past s (.asked c0 k) s' (.answered r held) ∧
      Wf s ∧ Wf s' ∧ Onward l A.now s ∧ Stays A.now s ∧ Onward l s s' ∧ Stays s s' ∧
      Onward l s' B.now ∧ Stays s' B.now ∧
      ∀ (i n : Nat), s.handles[i]? = some n → B.now.handles[i]? = some n := by
  obtain ⟨evs1, evs2, C, t, k, new, s', rfl, h1, h2, h3, h4⟩ := hm
  obtain ⟨k1, k2, k3⟩ := Going.kept h1 h hc.left
  obtain ⟨k4, k5⟩ := k1.goes h3 (by intro t c he; cases he)
  obtain ⟨k6, k7, k8⟩ := Going.kept h4 k4 fun t c hm => hc.right t c (List.mem_cons_of_mem _ hm)
  obtain ⟨exc, k9⟩ := k1.wf.grewGoes h3
  exact ⟨C.past, C.now, k, s', h2, k1.wf.now, k4.wf.now, k2, k3, k5, k9.stays, k7, k8,
    fun i n hi => (Kept.cons h3 h4).handles k1.wf hi⟩

/-- A `set_head` that succeeded: the layer is on top of the head before, and the head afterwards is
on top of it. -/
theorem pairs_setHead {A B : CState K V L} {evs : List (Conc.Event K V L)} (hk : Kept A evs B)
    (h : Going l A) (hc : Careful l evs) {i : Nat}
    (hr : (.setHead l i, .flag true) ∈ pairs (fun _ => none) evs) :
    ∃ n m v, B.now.handles[i]? = some n ∧ B.now.graphs l = some (some m, v) ∧
      B.now.log.Ancestor n m ∧
      ∀ a va, A.now.graphs l = some (some a, va) → B.now.log.Ancestor a n := by
  obtain ⟨r0, held, j, hm, hr, _⟩ := moment setHead_once hk h.wf hr
  have : r0 = .flag true := by
    cases r0 with
    | head o v => cases o <;> cases hr
    | layer => cases hr
    | _ => exact hr.symm
  subst this
  obtain ⟨past, s, k, s', h1, w1, w2, h2, h3, h4, h5, h6, h7, h8⟩ := hm.going h hc
  obtain ⟨n, o, v, g1, g2, g3⟩ := setHead_effect h1
  obtain ⟨o', v', k1, k2, k3, k4⟩ := h6 _ _ g3
  obtain ⟨m, rfl, k5⟩ := k4 n rfl
  refine ⟨n, m, v', h8 i n g1, k1, k5, ?_⟩
  intro a va ha
  obtain ⟨o1, v1, e1, _, _, e2⟩ := (h2.trans h4 h5 w1) _ _ ha
  rw [g3] at e1
  cases e1
  obtain ⟨n', e3, e4⟩ := e2 a rfl
  cases e3
  exact h7.ancestor w2 (w2.heads _ _ _ g3) e4

/-- A head that was read. -/
theorem pairs_headRead {A B : CState K V L} {evs : List (Conc.Event K V L)} (hk : Kept A evs B)
    (h : Going l A) (hc : Careful l evs) {r : Ans K V L}
    (hr : (.head l, r) ∈ pairs (fun _ => none) evs) :
    (∀ o va, A.now.graphs l = some (o, va) → ∃ j v, r = .head j v ∧ va ≤ v ∧
      (j = none → o = none)) ∧
    ∀ j v, r = .head (some j) v → ∃ n m v', B.now.handles[j]? = some n ∧
      B.now.graphs l = some (some m, v') ∧ v ≤ v' ∧ (v = v' → m = n) ∧ B.now.log.Ancestor n m ∧
      ∀ o va, A.now.graphs l = some (o, va) → (va = v → o = some n) ∧
        ∀ a, o = some a → B.now.log.Ancestor a n := by
  obtain ⟨r0, held, i, hm, rfl, hh⟩ := moment head_once hk h.wf hr
  obtain ⟨past, s, k, s', h1, w1, w2, h2, h3, h4, h5, h6, h7, h8⟩ := hm.going h hc
  obtain ⟨g0, g1⟩ := head_effect h1
  rcases g1 with ⟨g1, rfl⟩ | ⟨v, g1, rfl⟩ | ⟨n, v, j, g1, rfl, rfl⟩
  · refine ⟨fun o va ha => ?_, fun j v he => by cases he⟩
    obtain ⟨o', v', e1, _⟩ := h2 _ _ ha
    rw [g1] at e1
    cases e1
  · refine ⟨fun o va ha => ?_, fun j v he => by cases he⟩
    obtain ⟨o', v', e1, e2, _, e3⟩ := h2 _ _ ha
    rw [g1] at e1
    cases e1
    refine ⟨none, v, rfl, e2, fun _ => ?_⟩
    cases o with
    | none => rfl
    | some a => obtain ⟨_, e4, _⟩ := e3 a rfl; cases e4
  · refine ⟨fun o va ha => ?_, fun j' v' he => ?_⟩
    · obtain ⟨o', v', e1, e2, _, e3⟩ := h2 _ _ ha
      rw [g1] at e1
      cases e1
      exact ⟨some i, v, rfl, e2, fun h => by cases h⟩
    · cases he
      obtain ⟨o', v', k1, k2, k3, k4⟩ := h6 _ _ (g0.trans g1)
      obtain ⟨m, rfl, k5⟩ := k4 n rfl
      refine ⟨n, m, v', hh 0 n rfl, k1, k2, fun e => Option.some.inj (k3 e), k5, ?_⟩
      intro o va ha
      obtain ⟨o1, v1, e1, e2, e3, e4⟩ := h2 _ _ ha
      rw [g1] at e1
      cases e1
      refine ⟨fun e => (e3 e).symm, fun a ea => ?_⟩
      obtain ⟨n', e5, e6⟩ := e4 a ea
      cases e5
      exact h7.ancestor w2 (h5.known _ (w1.heads _ _ _ g1)) (h5.ancestor w1 (w1.heads _ _ _ g1) e6)

/-- The names of the layers below one in hand. -/
theorem stackNames_right {s s' : State K V L} {i : Nat} {r : Ans K V L}
    (hs : Step s (.stackNames i) r s') : ∃ n ns, r = .names ns ∧ s.handles[i]? = some n ∧
      ∀ a, a ∈ ns ↔ s.log.Ancestor a n := by
  cases hs with
  | stackNames h1 h2 => exact ⟨_, _, rfl, h1, fun a => h2.ancestor a⟩
  | rollupUptoNothing _ _ _ hc => rcases hc with hc | hc <;> cases hc
  | rollupUptoWrong _ _ _ _ _ hc => rcases hc with hc | hc <;> cases hc
  | rollupUpto _ _ _ _ _ _ _ hc => rcases hc with hc | hc <;> cases hc
  | commitTwice _ _ hc => rcases hc with hc | hc <;> cases hc

theorem Kept.split {A B : CState K V L} {b : List (Conc.Event K V L)} :
    ∀ {a : List (Conc.Event K V L)}, Kept A (a ++ b) B → ∃ M, Kept A a M ∧ Kept M b B := by
  intro a
  induction a generalizing A with
  | nil => exact fun h => ⟨A, .nil, h⟩
  | cons e a ih =>
    intro h
    cases h with
    | cons hg h1 =>
      obtain ⟨M, h2, h3⟩ := ih h1
      exact ⟨M, .cons hg h2, h3⟩

/-- One part of what happened and a later one: the states before and after each, and those at the
end of the two processes. -/
theorem After.states {evss : List (List (Conc.Event K V L))} {a wa b wb : List (Conc.Event K V L)}
    (hp : After evss a wa b wb) (h : LivesWhole evss) (hc : ∀ evs ∈ evss, Careful l evs) :
    ∃ (A1 M1 A2 E2 : CState K V L) (s1 s2 : State K V L) (E1 : CState K V L),
      Going l A1 ∧ Kept A1 a M1 ∧ Careful l a ∧ Going l M1 ∧ Onward l M1.now A2.now ∧
      Stays M1.now A2.now ∧ Going l A2 ∧ Kept A2 b E2 ∧ Careful l b ∧ Going l E2 ∧
      Onward l A2.now E2.now ∧ Stays A2.now E2.now ∧
      Wf s1 ∧ Kept { now := s1 } wa E1 ∧ Wf s2 ∧ Kept { now := s2 } wb E2 ∧
      ∀ (i n : Nat), M1.now.handles[i]? = some n → E1.now.handles[i]? = some n := by
  obtain ⟨before, last, s, B, he, h1, h2⟩ := h
  cases hp with
  | @same before' =>
    obtain ⟨x1, x2⟩ := List.append_inj' he rfl
    clear he
    cases x1
    cases x2
    have hb : ∀ evs ∈ before, Careful l evs := fun evs hm => hc evs (by simp [hm])
    have hl : Careful l (a ++ b) := hc _ (by simp)
    obtain ⟨w1, _, _⟩ := Going.lives (l := l) h1 .start hb
    obtain ⟨M, h3, h4⟩ := h2.split
    obtain ⟨g1, _, _⟩ := Going.kept h3 w1.going hl.left
    obtain ⟨g2, o2, t2⟩ := Going.kept h4 g1 hl.right
    exact ⟨_, M, M, B, s, s, B, w1.going, h3, hl.left, g1, .same rfl, .refl, g1, h4, hl.right, g2,
      o2, t2, w1, h2, w1, h2, fun i n hi => h4.handles g1.wf hi⟩
  | @later before' _ mid =>
    obtain ⟨x1, x2⟩ := List.append_inj' he rfl
    clear he
    cases x1
    cases x2
    obtain ⟨s0, k1, k2⟩ := h1.append
    cases k2 with
    | @stop _ _ C s1 _ _ k2 k3 k4 =>
    obtain ⟨w0, _, _⟩ := Going.lives (l := l) k1 .start fun evs hm => hc evs (by simp [hm])
    have ha : Careful l a := hc _ (by simp)
    have hb : Careful l b := hc _ (by simp)
    obtain ⟨g1, _, _⟩ := Going.kept k2 w0.going ha
    have w1 := k3.wf g1.wf.now
    obtain ⟨w2, o2, t2⟩ := Going.lives (l := l) k4 w1 fun evs hm => hc evs (by simp [hm])
    obtain ⟨g2, o3, t3⟩ := Going.kept h2 w2.going hb
    have o1 : Onward l C.now s1 := .same (by obtain ⟨lost, rfl, _⟩ := k3; rfl)
    exact ⟨_, C, _, B, s0, s, C, w0.going, k2, ha, g1, o1.trans o2 t2 w1, k3.stays.trans t2,
      w2.going, h2, hb, g2, o3, t3, w0, k2, w2, h2, fun i n hi => hi⟩

end Conc

end Verif
