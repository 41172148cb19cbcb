import Verif.Lemmas.ConcMoves
import Verif.Lemmas.ConcFree

/-!
Whatever happens in a store that many calls use is allowed by the specification.
-/

set_option linter.unusedSectionVars false

namespace Verif.Conc

open Spec SimpleBuilder Store Api

variable {K V L : Type} [LinearOrder K] [LinearOrder V] [DecidableEq L]
  {M : Shop K V L} {A : CState K V L} {w : World K V} {t : Nat}

/-- The world at the next moment. -/
def tick (w : World K V) : World K V := { w with cache := w.cache, past := w.seen }

theorem tick_step {w : World K V} : World.Step true w (tick w) := .evict fun _ _ h => h

/-- A commit that has closed its builder. -/
theorem At.closing {seen : List (View K V)} {past : List (State K V L)} {a : State K V L}
    {st : Stage K V L} {b : Nat} {cs : List (Call (VTriple K V))} {load : Bool}
    (h : At w seen past a st (.closing b cs load)) :
    ∃ y : Builder K V, a.builders[b]? = some y ∧ y.calls = none ∧ ¬ a.log.known y.name := by
  cases h with
  | fetch h => cases h
  | search h => cases h
  | taken h1 h2 _ _ _ h6 => exact ⟨_, h1, h2, h6⟩

theorem At.takes {seen : List (View K V)} {past : List (State K V L)} {a : State K V L}
    {x : HeldBuilder K V} {sb : SimpleBuilder K V} {load : Bool} {p : Conc.Pending K V L}
    (h : At w seen past a (.taken x sb load) p) : ∃ y ∈ a.builders, y.name = x.name := by
  cases h with
  | taken h1 _ h3 => exact ⟨_, List.mem_of_getElem? h1, h3⟩

theorem CSim.closes (h : CSim M A w) {b : Nat} {cs : List (Call (VTriple K V))} {load : Bool}
    (ht : A.calls t = some (.closing b cs load)) :
    ∃ y : Builder K V, A.now.builders[b]? = some y ∧ y.calls = none ∧ ¬ A.now.log.known y.name := by
  have hm := h.calls t
  rw [ht] at hm
  generalize M.calls t = o at hm
  cases hm with
  | some hm => exact hm.closing

/-- The store and the world go on, and the specification does not. -/
theorem CSim.passes (h : CSim M A w) {s : Session K V L} {ls : List (InternalLayer K V)}
    {w' : World K V} (hl : World.Later true w w') (hs : Sim s w' A.now)
    (hls : ∀ l ∈ ls, l ∈ w'.loaded) {calls : Nat → Option (Stage K V L)}
    (hc : ∀ u, calls u = M.calls u ∨ ∃ st p, calls u = some st ∧ A.calls u = some p ∧
      At w' M.seen A.past A.now st p) :
    CSim { session := s, loaded := ls ++ M.loaded, seen := ⟨s.store, s.cache⟩ :: M.seen, calls := calls }
      A (tick w') := by
  have hp := h.sim.layers.parentKnown
  have hseen : ∃ more, ((⟨s.store, s.cache⟩ : View K V) :: M.seen) = more ++ M.seen := ⟨[_], rfl⟩
  exact {
    sim := hs.passes (.step hs.layers.run tick_step) rfl rfl (fun _ hq => hq) rfl
    loaded := by
      intro l hx
      rcases List.mem_append.1 hx with hx | hx
      · exact hls l hx
      · exact hl.loaded l (h.loaded l hx)
    seen := by
      show List.Sublist _ (⟨w'.store, w'.cache⟩ :: w'.seen)
      rw [hs.store, hs.cache]
      exact (h.seen.trans hl.seen).cons_cons _
    top := ⟨M.seen, rfl⟩
    calls := by
      intro u
      rcases hc u with hu | ⟨st, p, h1, h2, h3⟩
      · show Match _ _ _ _ (calls u) _
        rw [hu]
        exact match_mono (h.calls u) (exc := fun _ => False) (.step hl tick_step) .refl
          (fun _ _ _ _ hx => hx) hseen .refl h.handlesKnown hp
      · show Match _ _ _ _ (calls u) _
        rw [h1, h2]
        exact .some (h3.mono (exc := fun _ => False) (.step .now tick_step) .refl
          (fun _ _ _ _ hx => hx) hseen .refl h.handlesKnown hp)
    apart := h.apart
    began := h.began }

/-- The specification goes on as well. -/
theorem CSim.acts (h : CSim M A w) {p p' : Conc.Pending K V L} {a' : State K V L}
    {st st' : Stage K V L} (hM : M.calls t = some st)
    (ht : A.calls t = some p) {s : Session K V L} {ls : List (InternalLayer K V)}
    {w' : World K V} (hl : World.Later true w w') (he : Effect A.past A.now p a' p')
    (hs : Sim s w' a')
    (hls : ∀ l ∈ ls, l ∈ w'.loaded) (hat : At w' M.seen (A.now :: A.past) a' st' p') :
    CSim (stepped M t (st', s, ls)) { now := a', past := A.now :: A.past, calls := upd A.calls t p' }
      (tick w') := by
  have hp := h.sim.layers.parentKnown
  have hseen : ∃ more, ((⟨s.store, s.cache⟩ : View K V) :: M.seen) = more ++ M.seen := ⟨[_], rfl⟩
  obtain ⟨hg, hgh⟩ := grew_effect he h.sim.distinct h.sim.unborn (by
    rintro b cs load x rfl hx
    obtain ⟨y, h1, _, h2⟩ := h.closes ht
    rw [h1] at hx
    cases hx
    exact h2)
  have hp' : ∀ n q, a'.log.parent n = some q → a'.log.known q := hs.layers.parentKnown
  have hh' : ∀ i n : Nat, a'.handles[i]? = some n → a'.log.known n := by
    intro i n hi
    rw [hgh] at hi
    exact hg.known (h.handlesKnown i n hi)
  exact {
    sim := hs.passes (.step hs.layers.run tick_step) rfl rfl (fun _ hq => hq) rfl
    loaded := by
      intro l hx
      rcases List.mem_append.1 hx with hx | hx
      · exact hls l hx
      · exact hl.loaded l (h.loaded l hx)
    seen := by
      show List.Sublist _ (⟨w'.store, w'.cache⟩ :: w'.seen)
      rw [hs.store, hs.cache]
      exact (h.seen.trans hl.seen).cons_cons _
    top := ⟨M.seen, rfl⟩
    calls := by
      intro u
      show Match _ _ _ _ (if u = t then some st' else M.calls u) (upd A.calls t p' u)
      by_cases hu : u = t
      · subst hu
        rw [if_pos rfl, upd_self]
        exact .some (hat.mono (exc := fun _ => False) (.step .now tick_step) .refl
          (fun _ _ _ _ hx => hx) hseen .refl hh' hp')
      · rw [if_neg hu, upd_ne hu]
        refine match_mono (h.calls u) (.step hl tick_step) hg ?_ hseen .act h.handlesKnown hp
        rintro b cs load h1 ⟨cs', load', rfl⟩
        exact hu (h.apart u t b cs load cs' load' h1 ht)
    apart := by
      have key : ∀ u b cs load cs' load', u ≠ t → A.calls u = some (.closing b cs load) →
          p' = .closing b cs' load' → False := by
        rintro u b cs load cs' load' hu h1 rfl
        obtain ⟨y, g1, g2, _⟩ := h.closes h1
        cases he with
        | close _ h2 h3 =>
          rw [g1] at h2
          cases h2
          rw [g2] at h3
          cases h3
      intro u v b cs load cs' load' h1 h2
      change upd A.calls t p' u = _ at h1
      change upd A.calls t p' v = _ at h2
      by_cases hu : u = t
      · by_cases hv : v = t
        · rw [hu, hv]
        · subst hu
          rw [upd_self] at h1
          rw [upd_ne hv] at h2
          exact (key v b cs' load' cs load hv h2 (Option.some.inj h1)).elim
      · by_cases hv : v = t
        · subst hv
          rw [upd_self] at h2
          rw [upd_ne hu] at h1
          exact (key u b cs load cs' load' hu h1 (Option.some.inj h2)).elim
        · rw [upd_ne hu] at h1
          rw [upd_ne hv] at h2
          exact h.apart u v b cs load cs' load' h1 h2
    began := by
      intro u c k h1
      change upd A.calls t p' u = _ at h1
      by_cases hu : u = t
      · subst hu
        rw [upd_self] at h1
        cases h1
        cases he
      · rw [upd_ne hu] at h1
        exact Nat.le_succ_of_le (h.began u c k h1) }

/-- A call begins. -/
theorem CSim.invokes (h : CSim M A w) (hM : M.calls t = none) (c : Req K V L) :
    A.calls t = none ∧ CSim (M.goes t (some (.start c)))
      { A with calls := fun u => if u = t then some (.asked c A.past.length) else A.calls u } w := by
  have ht : A.calls t = none := by
    have := h.calls t
    rw [hM] at this
    generalize A.calls t = o at this
    cases this
    rfl
  refine ⟨ht, ?_⟩
  exact {
    sim := h.sim
    loaded := h.loaded
    seen := h.seen
    top := h.top
    calls := by
      intro u
      show Match _ _ _ _ (if u = t then _ else M.calls u) (if u = t then _ else A.calls u)
      by_cases hu : u = t
      · rw [if_pos hu, if_pos hu]
        exact .some (.start (Nat.le_refl _))
      · rw [if_neg hu, if_neg hu]
        exact h.calls u
    apart := by
      intro u v b cs load cs' load' h1 h2
      change (if u = t then _ else A.calls u) = _ at h1
      change (if v = t then _ else A.calls v) = _ at h2
      split at h1
      · cases h1
      · split at h2
        · cases h2
        · exact h.apart u v b cs load cs' load' h1 h2
    began := by
      intro u c' k h1
      change (if u = t then _ else A.calls u) = _ at h1
      split at h1
      · cases h1; exact Nat.le_refl _
      · exact h.began u c' k h1 }

/-- A call ends. -/
theorem CSim.answers (h : CSim M A w) {r : Ans K V L} {ls : List (InternalLayer K V)}
    (hM : M.calls t = some (.done r ls)) :
    ∃ r' ns, A.calls t = some (.answered r' ns) ∧
      CState.numbered M.session.layers.length r = CState.numbered A.now.handles.length r' ∧
      CSim ({ M with session := { M.session with layers := M.session.layers ++ ls } }.goes t none)
        { A with
          now := { A.now with handles := A.now.handles ++ ns }
          calls := fun u => if u = t then none else A.calls u } w := by
  have hm := h.calls t
  rw [hM] at hm
  generalize ht : A.calls t = o at hm
  cases hm with
  | some hm =>
  cases hm with
  | @done _ r' _ ns h1 h2 =>
  refine ⟨r', ns, rfl, ?_, ?_⟩
  · rw [h.sim.handlesLength]
    exact h1 _
  · exact {
      sim := h.sim.holdAll h2
      loaded := h.loaded
      seen := h.seen
      top := h.top
      calls := by
        intro u
        show Match _ _ _ _ (if u = t then _ else M.calls u) (if u = t then _ else A.calls u)
        by_cases hu : u = t
        · rw [if_pos hu, if_pos hu]
          exact .none
        · rw [if_neg hu, if_neg hu]
          exact match_mono (h.calls u) (exc := fun _ => False) .now
            (Grew.refl.handed (List.prefix_append ..)) (fun _ _ _ _ hx => hx) ⟨[], rfl⟩ .handed
            h.handlesKnown h.sim.layers.parentKnown
      apart := by
        intro u v b cs load cs' load' h1 h2
        change (if u = t then _ else A.calls u) = _ at h1
        change (if v = t then _ else A.calls v) = _ at h2
        split at h1
        · cases h1
        · split at h2
          · cases h2
          · exact h.apart u v b cs load cs' load' h1 h2
      began := by
        intro u c' k h1
        change (if u = t then _ else A.calls u) = _ at h1
        split at h1
        · cases h1
        · exact h.began u c' k h1 }

/-- Whatever can happen next is allowed, and the world goes on. -/
theorem CSim.nextLater (h : CSim M A w) {e : Option (Conc.Event K V L)} {M' : Shop K V L}
    (hx : Next M e M') :
    (∃ A' w', CSim M' A' w' ∧ World.Later true w w' ∧
      ((e = none ∧ A' = A) ∨ ∃ e', e = some e' ∧ Goes A e' A')) ∨
      ∃ e', e = some e' ∧ A.Leaves e' := by
  cases hx with
  | inv h1 =>
    obtain ⟨h2, h3⟩ := h.invokes h1 _
    exact .inl ⟨_, _, h3, .now, .inr ⟨_, rfl, .inv h2⟩⟩
  | @act t st ch h1 h2 =>
    have hm := h.calls t
    rw [h1] at hm
    generalize ht : A.calls t = o at hm
    cases hm with
    | @some _ p hat =>
    by_cases hin : A.InContract p
    · left
      have hfree : ∀ n, A.now.Fresh n → n ≠ ch.base.new → (advance M ch st).2.1.Free n := by
        intro n hf hn
        refine free_advance (h.sim.free.1 hf) hn ?_
        rintro x sb load rfl hx
        obtain ⟨y, hy, hyx⟩ := hat.takes
        exact hf.2.2.1 y hy (hyx.trans hx)
      rcases advance_moves h ht hat hin h2 with ⟨g1, g2, g3, g4⟩ | ⟨g1, g2, g3, g4, g5⟩
      · refine ⟨A, _, h.passes g1 g2 g3 ?_, .step g1 tick_step, .inr ⟨_, rfl, .skip ht hin⟩⟩
        intro u
        by_cases hu : u = t
        · subst hu
          exact Or.inr ⟨_, p, if_pos rfl, ht, g4⟩
        · exact Or.inl (if_neg hu)
      · exact ⟨_, _, h.acts h1 ht g1 g2 g3 g4 g5, .step g1 tick_step,
          .inr ⟨_, rfl, .act ht hin g2 (fun n hf hn => g3.free.2 (hfree n hf hn))⟩⟩
    · exact .inr ⟨_, rfl, p, ht, hin⟩
  | ret h1 =>
    obtain ⟨r', ns, h2, h3, h4⟩ := h.answers h1
    rw [h3]
    exact .inl ⟨_, _, h4, .now, .inr ⟨_, rfl, .ret h2⟩⟩
  | cache h1 =>
    have hst := World.Step.cacheLayer (safe := true) (h.loaded _ h1)
    rw [h.sim.cache] at hst
    have hs := h.sim.frame (.step h.sim.layers.run hst) rfl rfl (fun _ hq => hq)
    exact .inl ⟨A, _, h.passes (.step .now hst) hs (ls := []) noLayers (fun u => Or.inl rfl),
      .step (.step .now hst) tick_step, .inl ⟨rfl, rfl⟩⟩
  | @evict c h1 =>
    have hst := World.Step.evict (safe := true) (w := w) (c := c)
      (fun n l hx => by rw [h.sim.cache]; exact h1 n l hx)
    have hs := h.sim.frame (.step h.sim.layers.run hst) rfl rfl (fun _ hq => hq)
    exact .inl ⟨A, _, h.passes (.step .now hst) hs (ls := []) noLayers (fun u => Or.inl rfl),
      .step (.step .now hst) tick_step, .inl ⟨rfl, rfl⟩⟩

/-- Whatever can happen next is allowed. -/
theorem CSim.next (h : CSim M A w) {e : Option (Conc.Event K V L)} {M' : Shop K V L}
    (hx : Next M e M') :
    (∃ A' w', CSim M' A' w' ∧ ((e = none ∧ A' = A) ∨ ∃ e', e = some e' ∧ Goes A e' A')) ∨
      ∃ e', e = some e' ∧ A.Leaves e' := by
  rcases h.nextLater hx with ⟨A', w', h1, _, h2⟩ | h1
  · exact .inl ⟨A', w', h1, h2⟩
  · exact .inr h1

/-- Whatever can happen is allowed. -/
theorem allowed {evs : List (Conc.Event K V L)} {N : Shop K V L} (hr : Runs M evs N) :
    ∀ {A : CState K V L} {w : World K V}, CSim M A w → Allowed A evs := by
  induction hr with
  | nil => intro A w _; exact .nil
  | cons h1 _ ih =>
    intro A w h
    rcases h.next h1 with ⟨A', w', h2, ⟨rfl, rfl⟩ | ⟨e, rfl, h3⟩⟩ | ⟨e, rfl, h3⟩
    · exact ih h2
    · exact .cons h3 (ih h2)
    · exact .out h3

/-- The states belong together until a call leaves the contract. -/
theorem kept {evs : List (Conc.Event K V L)} {N : Shop K V L} (hr : Runs M evs N) :
    ∀ {A : CState K V L} {w : World K V}, CSim M A w →
      (∃ B w', Kept A evs B ∧ CSim N B w') ∨
      ∃ pre e post B, evs = pre ++ e :: post ∧ Kept A pre B ∧ B.Leaves e := by
  induction hr with
  | nil => intro A w h; exact .inl ⟨A, w, .nil, h⟩
  | cons h1 _ ih =>
    intro A w h
    rcases h.next h1 with ⟨A', w', h2, ⟨rfl, rfl⟩ | ⟨e, rfl, h3⟩⟩ | ⟨e, rfl, h3⟩
    · exact ih h2
    · rcases ih h2 with ⟨B, w', h4, h5⟩ | ⟨pre, e', post, B, h4, h5, h6⟩
      · exact .inl ⟨B, w', .cons h3 h4, h5⟩
      · exact .inr ⟨e :: pre, e', post, B, by rw [h4]; rfl, .cons h3 h5, h6⟩
    · exact .inr ⟨[], e, _, A, rfl, .nil, h3⟩

end Verif.Conc
