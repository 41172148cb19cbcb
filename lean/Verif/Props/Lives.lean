import Verif.Lemmas.Lives
import Verif.Props.Conc

/-!
C66: programs that use a store on disk one after the other, each with many calls at the same time
and each stopped at any moment, cannot tell it from the simple store of `Verif/LifeSpec.lean`.
-/

namespace Verif.Conc

open Spec SimpleBuilder Store Api

section Main

variable {K V L : Type} [LinearOrder K] [LinearOrder V] [DecidableEq L]

/-- C66: whatever calls are made on a store on disk by one process after the other, and at whatever
moments the processes stop, the answers are those of the simple store, up to the first step of a
call outside of the contract. Missing: calls outside of the contract, see `CState.InContract`, and
a process that stops in the middle of writing a file. -/
theorem C66_lives_partial {evss : List (List (Conc.Event K V L))}
    (h : Lives { session := { disk := true } } evss) : LivesAllowed {} evss :=
  lives_allowed h CSim.start

/-- Either all that happens is as in the simple store, or it is up to a process in which a call
goes on outside of the contract. -/
theorem C66_kept_partial {before : List (List (Conc.Event K V L))} {evs : List (Conc.Event K V L)}
    (h : Lives { session := { disk := true } } (before ++ [evs])) :
    (∃ s B, LivesKept {} before s ∧ Kept { now := s } evs B) ∨
      ∃ pre bad post s, before ++ [evs] = pre ++ bad :: post ∧ LivesKept {} pre s ∧
        Left { now := s } bad :=
  lives_kept before evs h CSim.start

omit [LinearOrder K] [LinearOrder V] in
/-- A layer whose name one process knows is found by every later process, and has the same
triples. -/
theorem C66_same_triples {before mid : List (List (Conc.Event K V L))}
    {evs evs' : List (Conc.Event K V L)} {s : State K V L} {B : CState K V L}
    (h : LivesKept {} (before ++ evs :: mid) s) (h' : Kept { now := s } evs' B)
    {i n : Nat} {t : VTriple K V} {r r1 r2 : Ans K V L}
    (h1 : (.layerName i, .name n) ∈ pairs (fun _ => none) evs)
    (h2 : (.query i (.has t), r) ∈ pairs (fun _ => none) evs)
    (h3 : (.getLayer n, r1) ∈ pairs (fun _ => none) evs') :
    ∃ j, r1 = .layer j ∧ ((.query j (.has t), r2) ∈ pairs (fun _ => none) evs' → r2 = r) := by
  obtain ⟨s0, k1, k2⟩ := h.append
  cases k2 with
  | @stop _ _ C s1 _ _ k2 k3 k4 =>
  have w0 := (k1.stays .start).2
  have w1 := CWf.kept k2 w0.alone
  obtain ⟨k5, w2⟩ := k4.stays (k3.wf w1.now)
  have g1 := name_right (pairs_kept k2 w0.alone (fun _ => trivial) _ _ h1 trivial)
  obtain ⟨m, b, g2, rfl, g3⟩ := has_right (pairs_kept k2 w0.alone (fun _ => trivial) _ _ h2 trivial)
  rw [g1] at g2
  cases g2
  have g4 : C.now.log.known n := w1.now.handle g1
  have st := k3.stays.trans k5
  obtain ⟨j, rfl, g5⟩ := pairs_getLayer w2 h' (st.known n g4) h3
  refine ⟨j, rfl, fun h4 => ?_⟩
  obtain ⟨m, b', g6, rfl, g7⟩ := has_right (pairs_kept h' w2.alone (fun _ => trivial) _ _ h4 trivial)
  rw [g5] at g6
  cases g6
  rw [(st.trans (h'.stays w2.alone)).triples n g4] at g7
  rw [show b' = b from Bool.eq_iff_iff.2 (g7.trans g3.symm)]

omit [LinearOrder K] [LinearOrder V] in
/-- The head of a graph that a process has set is found by every later process, unless other calls
change the graph. -/
theorem C66_heads {before mid : List (List (Conc.Event K V L))}
    {evs evs' : List (Conc.Event K V L)} {s : State K V L} {B : CState K V L}
    (h : LivesKept {} (before ++ evs :: mid) s) (h' : Kept { now := s } evs' B)
    {l : L} {i n : Nat} {c : Req K V L} {r r1 r2 : Ans K V L}
    (h1 : ∀ t c, .inv t c ∈ evs → changes l c → setsTo l i c)
    (h2 : (c, r) ∈ pairs (fun _ => none) evs) (hc : setsTo l i c) (hr : succeeded r)
    (h3 : (.layerName i, .name n) ∈ pairs (fun _ => none) evs)
    (h4 : ∀ evs ∈ mid, Quiet l evs) (h5 : Quiet l evs')
    (h6 : (.head l, r1) ∈ pairs (fun _ => none) evs') :
    ∃ j v, r1 = .head (some j) v ∧
      ((.layerName j, r2) ∈ pairs (fun _ => none) evs' → r2 = .name n) := by
  obtain ⟨s0, k1, k2⟩ := h.append
  cases k2 with
  | @stop _ _ C s1 _ _ k2 k3 k4 =>
  have w0 := (k1.stays .start).2
  have w1 := CWf.kept k2 w0.alone
  have w2 := (k4.stays (k3.wf w1.now)).2
  have g1 := name_right (pairs_kept k2 w0.alone (fun _ => trivial) _ _ h3 trivial)
  obtain ⟨v, g2⟩ := (pairs_set (n := n) k2 (by intro m hm; rw [g1] at hm; cases hm; rfl)
    w0.alone h1 (fun _ => trivial)).2 c r h2 hc hr
  have g3 : s1.graphs l = C.now.graphs l := by obtain ⟨lost, rfl, _⟩ := k3; rfl
  have g4 : s.graphs l = some (some n, v) := by
    rw [k4.quiet (k3.wf w1.now) h4, g3, g2]
  obtain ⟨j, rfl, g5⟩ := pairs_head w2 h' h5 g4 h6
  refine ⟨j, v, rfl, fun h7 => ?_⟩
  obtain ⟨m, rfl, g6⟩ := layerName_right (pairs_kept h' w2.alone (fun _ => trivial) _ _ h7 trivial)
  rw [g5] at g6
  cases g6
  rfl

end Main

/-! ### Programs -/

/-- A process that makes a graph and a builder. -/
def zeroth : List (Conc.Event Nat Nat Nat) :=
  [.inv 0 (.createGraph 7), .inv 1 .createBase, .act 0 1, .act 1 2, .ret 0 .done]

/-- A process that makes a layer and sets the head; it stops while another layer is made. -/
def first : List (Conc.Event Nat Nat Nat) :=
  [.inv 1 .createBase, .act 1 5, .ret 1 (.builder 0), .inv 1 (.commit 0), .act 1 6, .act 1 7,
   .ret 1 (.layer 0), .inv 0 (.query 0 (.has ⟨1, 2, .node 3⟩)), .inv 1 (.layerName 0), .act 0 8,
   .act 1 8, .ret 0 (.answer (.flag false)), .ret 1 (.name 5), .inv 0 (.setHead 7 0), .act 0 8,
   .ret 0 (.flag true), .inv 0 (.openWrite 0), .act 0 9]

/-- A process that finds them. -/
def second : List (Conc.Event Nat Nat Nat) :=
  [.inv 0 (.head 7), .inv 1 (.getLayer 5), .act 1 10, .act 0 10, .ret 0 (.head (some 0) 1),
   .ret 1 (.layer 1), .inv 0 (.layerName 0), .act 0 10, .ret 0 (.name 5),
   .inv 0 (.query 1 (.has ⟨1, 2, .node 3⟩)), .act 0 11, .ret 0 (.answer (.flag false))]

/-- The hypotheses of `C66_same_triples` and `C66_heads` about the state of the simple store. -/
example : ∃ s B, LivesKept ({} : State Nat Nat Nat) ([zeroth] ++ first :: []) s ∧
    Kept { now := s } second B := by
  have fits : ({} : Ids Nat Nat).Fits {} (after (fun _ => False) []) := by
    constructor <;> simp [after, Ids.code, added]
    all_goals (intro a h; omega)
  have life : ∀ {s : State Nat Nat Nat} {evs rest} {last},
      (∃ B, Kept { now := s } evs B ∧ ∃ s1, Reopened B.now s1 ∧
        ∃ s' C, LivesKept s1 rest s' ∧ Kept { now := s' } last C) →
      ∃ s' C, LivesKept s (evs :: rest) s' ∧ Kept { now := s' } last C :=
    fun ⟨B, h1, s1, h2, s', C, h3, h4⟩ => ⟨s', C, .stop h1 h2 h3, h4⟩
  have more : ∀ {A A' : CState Nat Nat Nat} {e rest} {P : CState Nat Nat Nat → Prop},
      Goes A e A' → (∃ B, Kept A' rest B ∧ P B) →
      ∃ B, Kept A (e :: rest) B ∧ P B := fun h1 ⟨B, h2, h3⟩ => ⟨B, .cons h1 h2, h3⟩
  have back : ∀ {A : CState Nat Nat Nat} {t r r' held rest}
      {P : CState Nat Nat Nat → Prop}, A.calls t = some (.answered r held) →
      CState.numbered A.now.handles.length r = r' → (∃ B, Kept _ rest B ∧ P B) →
      ∃ B, Kept A (.ret t r' :: rest) B ∧ P B := fun h1 h2 h3 => h2 ▸ more (.ret h1) h3
  have none_asked : ∀ {P : Nat → Prop}, ∀ n ∈ ([] : List Nat), P n := by intro P n hn; cases hn
  have same : ∀ {s : State Nat Nat Nat} {new : Nat}, ∀ n, s.Fresh n → n ≠ new → s.Fresh n :=
    fun n h _ => h
  have notClosing : ∀ {t k k' b : Nat} {c c' : Req Nat Nat Nat} {cs load},
      (if t = 1 then some (.asked c k) else if t = 0 then some (.asked c' k') else none) ≠
        some (Conc.Pending.closing b cs load) := by
    intro t k k' b c c' cs load h
    split at h
    · cases h
    · split at h <;> cases h
  refine life ?_
  refine more (.inv rfl) ?_
  refine more (.inv rfl) ?_
  refine more (.act rfl ⟨trivial, none_asked⟩ (.once (.createGraph rfl) (held := []) rfl) same) ?_
  refine more (.act rfl ⟨trivial, none_asked⟩ (.once (.createBase (new := 2) ?_) (held := []) rfl) ?_) ?_
  · simp [State.Fresh, History.known, State.setGraph]
  · simp [State.Fresh, History.known, State.setGraph, eq_comm]
  refine back rfl rfl ?_
  refine ⟨_, .nil, _, ⟨[2], rfl, ?_, ?_, ?_⟩, ?_⟩
  · intro n hn; cases hn
  · intro b hb _ _; simp [State.setGraph] at hb; simp [hb]
  · intro n hn; simp at hn; simp [hn, History.known, State.setGraph]
  refine life ?_
  refine more (.inv rfl) ?_
  refine more (.act rfl ⟨trivial, none_asked⟩ (.once (.createBase (new := 5) ?_) (held := []) rfl) ?_) ?_
  · simp [State.Fresh, History.known, State.setGraph]
  · simp [State.Fresh, History.known, State.setGraph, eq_comm]
    omega
  refine back rfl rfl ?_
  refine more (.inv rfl) ?_
  refine more (.act rfl ⟨⟨_, rfl⟩, none_asked⟩ (.close (.inl ⟨rfl, rfl⟩) rfl rfl) ?_) ?_
  · simp only [State.Fresh, History.known, State.setBuilder]
    intro n h _
    simpa using h
  refine more (.act rfl trivial (.write rfl fits (.inr ⟨rfl, rfl, rfl⟩)) ?_) ?_
  · simp [State.Fresh, History.known, State.setGraph, State.setBuilder, State.add, Spec.Event.new]
    omega
  refine back rfl rfl ?_
  refine more (.inv rfl) ?_
  refine more (.inv rfl) ?_
  refine more (.act rfl ⟨⟨⟨_, rfl⟩, by simp⟩, none_asked⟩
    (.once (.query (a := .flag false) rfl ?_) (held := []) rfl) same) ?_
  · simp [Right, History.triples, State.add, after, added, Spec.Event.new]
  refine more (.act rfl ⟨⟨_, rfl⟩, none_asked⟩ (.once (.layerName rfl) (held := []) rfl) same) ?_
  refine back rfl rfl ?_
  refine back rfl rfl ?_
  refine more (.inv rfl) ?_
  refine more (.act rfl ⟨⟨_, rfl⟩, none_asked⟩
    (.once (.setHead (o := none) (v := 0) rfl rfl ?_) (held := []) rfl) same) ?_
  · intro r hr; cases hr
  refine back rfl rfl ?_
  refine more (.inv rfl) ?_
  refine more (.act rfl ⟨⟨_, rfl⟩, none_asked⟩
    (.once (.openWrite (new := 9) rfl ?_) (held := []) rfl) ?_) ?_
  · simp [State.Fresh, History.known, State.setGraph, State.setBuilder, State.add, Spec.Event.new]
  · simp [State.Fresh, History.known, State.setGraph, State.setBuilder, State.add, Spec.Event.new]
    omega
  refine ⟨_, .nil, _, ⟨[2, 9], rfl, ?_, ?_, ?_⟩, ?_⟩
  · intro n hn; simp [State.setGraph, State.setBuilder, State.add] at hn; simp [hn]
  · intro b hb h1 _
    simp [History.known, State.setGraph, State.setBuilder, State.add, Spec.Event.new] at hb h1
    rcases hb with rfl | rfl
    · simp at h1
    · simp
  · intro n hn
    simp at hn
    rcases hn with rfl | rfl <;>
      simp [History.known, State.setGraph, State.setBuilder, State.add, Spec.Event.new]
  have stop : ∀ {s : State Nat Nat Nat}, (∃ B, Kept { now := s } second B ∧ True) →
      ∃ s' C, LivesKept s [] s' ∧ Kept { now := s' } second C :=
    fun ⟨B, h, _⟩ => ⟨_, B, .nil, h⟩
  refine stop ?_
  refine more (.inv rfl) ?_
  refine more (.inv rfl) ?_
  refine more (.act rfl ⟨⟨by simp [State.setGraph, State.setBuilder, State.add], by simp, by simp⟩, ?_⟩
    (.once (.getLayer (by simp [History.known, State.setGraph, State.setBuilder, State.add,
      Spec.Event.new])) (held := [5]) rfl) same) ?_
  · intro n _ t b cs load x h
    exact (notClosing (c := .getLayer 5) (c' := .head 7) h).elim
  refine more (.act rfl ⟨trivial, none_asked⟩ (.once (.head (n := 5) (v := 1) rfl) (held := [5]) rfl) same) ?_
  refine back rfl rfl ?_
  refine back rfl rfl ?_
  refine more (.inv rfl) ?_
  refine more (.act rfl ⟨⟨_, rfl⟩, none_asked⟩ (.once (.layerName rfl) (held := []) rfl) same) ?_
  refine back rfl rfl ?_
  refine more (.inv rfl) ?_
  refine more (.act rfl ⟨⟨⟨_, rfl⟩, by simp⟩, none_asked⟩
    (.once (.query (a := .flag false) rfl ?_) (held := []) rfl) same) ?_
  · simp [Right, History.triples, State.setGraph, State.setBuilder, State.add,
      State.hold, after, added, Spec.Event.new]
  exact back rfl rfl ⟨_, .nil, trivial⟩

/-- The other hypotheses. -/
example : (∀ t c, .inv t c ∈ first → changes 7 c → setsTo 7 0 c) ∧
    (.setHead 7 0, .flag true) ∈ pairs (fun _ => none) first ∧
    (.layerName 0, .name 5) ∈ pairs (fun _ => none) first ∧
    (.query 0 (.has ⟨1, 2, .node 3⟩), .answer (.flag false)) ∈ pairs (fun _ => none) first ∧
    Quiet 7 second ∧ (.head 7, .head (some 0) 1) ∈ pairs (fun _ => none) second ∧
    (.layerName 0, .name 5) ∈ pairs (fun _ => none) second ∧
    (.getLayer 5, .layer 1) ∈ pairs (fun _ => none) second ∧
    (.query 1 (.has ⟨1, 2, .node 3⟩), .answer (.flag false)) ∈ pairs (fun _ => none) second := by
  refine ⟨?_, by decide, by decide, by decide, ?_, by decide, by decide, by decide, by decide⟩
  · intro t c hm hc
    simp [first] at hm
    rcases hm with ⟨rfl, rfl⟩ | ⟨rfl, rfl⟩ | ⟨rfl, rfl⟩ | ⟨rfl, rfl⟩ | ⟨rfl, rfl⟩ | ⟨rfl, rfl⟩ <;>
      first | exact hc.elim | exact ⟨rfl, rfl⟩
  · intro t c hm hc
    simp [second] at hm
    rcases hm with ⟨rfl, rfl⟩ | ⟨rfl, rfl⟩ | ⟨rfl, rfl⟩ | ⟨rfl, rfl⟩ <;> exact hc

/-- The names that may be left without a layer. -/
def leavesB (M : Shop Nat Nat Nat) (lost : List Name) : Bool :=
  M.session.disk && M.session.lost.all (fun n => lost.contains n) &&
    M.session.builders.all
      (fun x => (M.session.store.get? x.name).isSome || lost.contains x.name) &&
    lost.all fun n => M.session.lost.contains n || (M.session.store.get? n).isNone

theorem leavesB_leaves {M : Shop Nat Nat Nat} {lost : List Name} (h : leavesB M lost = true) :
    M.Leaves lost := by
  simp only [leavesB, Bool.and_eq_true, List.all_eq_true, Bool.or_eq_true, List.contains_iff_mem,
    Option.isNone_iff_eq_none] at h
  refine ⟨h.1.1.1, h.1.1.2, fun x hx hn => ?_, h.2⟩
  rcases h.1.2 x hx with h1 | h1
  · rw [hn] at h1; cases h1
  · exact h1

/-- A process that stops after a rollup was registered, while a layer is committed and a builder
is made. -/
def stopping : List (Move Nat Nat Nat) := whole 0 0 (before ++ [.setHead 7 1]) ++
  [.inv 1 (.rollup 1), .inv 2 (.openWrite 1), .act 1 100, .act 2 101, .act 2 111, .act 2 112,
   .act 2 113, .ret 2, .act 1 102, .inv 2 (.edit 2 (.removeValue ⟨1, 2, .node 3⟩)), .act 2 103,
   .ret 2, .act 1 104, .inv 2 (.commit 2), .act 2 105, .act 1 106, .act 1 107, .inv 3 .createBase,
   .act 3 108, .act 1 109, .act 1 110]

/-- The next process. -/
def starting : List (Move Nat Nat Nat) := whole 0 200
  [.head 7, .query 0 .triples, .stackNames 0, .getLayer 8, .query 1 .triples, .openWrite 0,
   .commit 0, .setHead 7 2, .head 7]

/-- The hypothesis of `C66_lives_partial` and `C66_kept_partial`. -/
example : ∃ evs evs' : List (Conc.Event Nat Nat Nat), Lives { session := { disk := true } } ([evs] ++ [evs']) ∧
    answers evs' = [(0, .head (some 0) 1), (0, .answer (.list [⟨1, 1, 2⟩, ⟨1, 1, 3⟩])),
      (0, .names [8, 35]), (0, .layer 1), (0, .answer (.list [⟨1, 1, 2⟩])), (0, .builder 0),
      (0, .layer 2), (0, .flag true), (0, .head (some 3) 2)] := by
  have h : ((playTo { session := { disk := true } } stopping).bind fun N =>
      if leavesB N [113, 108, 1000] then (playC (N.opened [113, 108, 1000]) starting).map answers
      else none) = some [(0, .head (some 0) 1), (0, .answer (.list [⟨1, 1, 2⟩, ⟨1, 1, 3⟩])),
      (0, .names [8, 35]), (0, .layer 1), (0, .answer (.list [⟨1, 1, 2⟩])), (0, .builder 0),
      (0, .layer 2), (0, .flag true), (0, .head (some 3) 2)] := by decide +kernel
  obtain ⟨N, h1, h2⟩ := Option.bind_eq_some_iff.mp h
  obtain ⟨evs, _, h3⟩ := playTo_runs h1
  split at h2
  · rename_i h4
    obtain ⟨evs', h5, h6⟩ := Option.map_eq_some_iff.mp h2
    obtain ⟨N', h7⟩ := playC_trace h5
    exact ⟨evs, evs', .stop h3 (leavesB_leaves h4) (.last h7), h6⟩
  · cases h2

/-- The specification does not allow a head to be lost. -/
example {s s' : State Nat Nat Nat} {l : Nat} (h : Reopened s s') : s'.graphs l = s.graphs l := by
  obtain ⟨lost, rfl, _⟩ := h
  rfl

end Verif.Conc
