import Verif.Lemmas.HeadLine
import Verif.Props.Lives

/-!
C67: a graph that is not deleted and whose head is moved with `set_head` only never loses a layer
that was made its head, whatever other calls are made at the same time and however many processes
use the store one after the other.
-/

namespace Verif.Conc

open Spec Api

section Main

variable {K V L : Type} [DecidableEq L] {l : L}

/-- C67: a layer that `set_head` has made the head is the head, or below it, whenever the head is
read afterwards. -/
theorem C67_not_lost {evss : List (List (Conc.Event K V L))} {a wa b wb : List (Conc.Event K V L)}
    (h : LivesWhole evss) (hp : After evss a wa b wb) (hc : ∀ evs ∈ evss, Careful l evs)
    {i n : Nat} {r : Ans K V L} (h1 : (.setHead l i, .flag true) ∈ pairs (fun _ => none) a)
    (h2 : (.layerName i, .name n) ∈ pairs (fun _ => none) wa)
    (h3 : (.head l, r) ∈ pairs (fun _ => none) b) :
    ∃ j v, r = .head (some j) v ∧ ∀ r', (.stackNames j, r') ∈ pairs (fun _ => none) wb →
      ∃ ns, r' = .names ns ∧ n ∈ ns := by
  obtain ⟨A1, M1, A2, E2, s1, s2, E1, g1, k1, c1, g2, o1, t1, g3, k2, c2, g4, o2, t2, w1, e1, w2, e2,
    hh⟩ := hp.states h hc
  obtain ⟨n', m, v, q1, q2, q3, _⟩ := pairs_setHead k1 g1 c1 h1
  have q4 := name_right (pairs_kept e1 w1.alone (fun _ => trivial) _ _ h2 trivial)
  have q5 := hh i n' q1
  rw [q4] at q5
  cases q5
  obtain ⟨o, va, q6, _, _, q7⟩ := o1 _ _ q2
  obtain ⟨m', rfl, q8⟩ := q7 m rfl
  have q9 : A2.now.log.Ancestor n m' :=
    (t1.ancestor g2.wf.now (g2.wf.now.heads _ _ _ q2) q3).then q8
  obtain ⟨r1, r2⟩ := pairs_headRead k2 g3 c2 h3
  obtain ⟨j, v', rfl, _, r3⟩ := r1 _ _ q6
  cases j with
  | none => cases r3 rfl
  | some j =>
    refine ⟨j, v', rfl, fun r' hr' => ?_⟩
    obtain ⟨x, _, _, x1, _, _, _, _, x2⟩ := r2 j v' rfl
    obtain ⟨y, ns, rfl, y1, y2⟩ :=
      stackNames_right (pairs_kept e2 w2.alone (fun _ => trivial) _ _ hr' trivial)
    rw [x1] at y1
    cases y1
    refine ⟨ns, rfl, (y2 n).2 (History.Ancestor.then ?_ ((x2 _ _ q6).2 m' rfl))⟩
    exact t2.ancestor g3.wf.now (g3.wf.now.heads _ _ _ q6) q9

/-- A layer that `set_head` makes the head is on top of those that it made the head before. -/
theorem C67_in_order {evss : List (List (Conc.Event K V L))} {a wa b wb : List (Conc.Event K V L)}
    (h : LivesWhole evss) (hp : After evss a wa b wb) (hc : ∀ evs ∈ evss, Careful l evs)
    {i i' n : Nat} {r' : Ans K V L} (h1 : (.setHead l i, .flag true) ∈ pairs (fun _ => none) a)
    (h2 : (.layerName i, .name n) ∈ pairs (fun _ => none) wa)
    (h3 : (.setHead l i', .flag true) ∈ pairs (fun _ => none) b)
    (h4 : (.stackNames i', r') ∈ pairs (fun _ => none) wb) : ∃ ns, r' = .names ns ∧ n ∈ ns := by
  obtain ⟨A1, M1, A2, E2, s1, s2, E1, g1, k1, c1, g2, o1, t1, g3, k2, c2, g4, o2, t2, w1, e1, w2, e2,
    hh⟩ := hp.states h hc
  obtain ⟨n', m, v, q1, q2, q3, _⟩ := pairs_setHead k1 g1 c1 h1
  have q4 := name_right (pairs_kept e1 w1.alone (fun _ => trivial) _ _ h2 trivial)
  have q5 := hh i n' q1
  rw [q4] at q5
  cases q5
  obtain ⟨o, va, q6, _, _, q7⟩ := o1 _ _ q2
  obtain ⟨m', rfl, q8⟩ := q7 m rfl
  have q9 : A2.now.log.Ancestor n m' :=
    (t1.ancestor g2.wf.now (g2.wf.now.heads _ _ _ q2) q3).then q8
  obtain ⟨x, _, _, x1, _, _, x2⟩ := pairs_setHead k2 g3 c2 h3
  obtain ⟨y, ns, rfl, y1, y2⟩ :=
    stackNames_right (pairs_kept e2 w2.alone (fun _ => trivial) _ _ h4 trivial)
  rw [x1] at y1
  cases y1
  refine ⟨ns, rfl, (y2 n).2 (History.Ancestor.then ?_ (x2 _ _ q6))⟩
  exact t2.ancestor g3.wf.now (g3.wf.now.heads _ _ _ q6) q9

/-- Of two layers that `set_head` makes the head at the same time or one after the other, one is
on top of the other: of two layers with the same parent only one becomes the head. -/
theorem C67_one_line {before : List (List (Conc.Event K V L))} {evs : List (Conc.Event K V L)}
    (h : LivesWhole (before ++ [evs])) (hc : ∀ e ∈ before ++ [evs], Careful l e) {i i' n n' : Nat}
    {ns ns' : List Nat} (h1 : (.setHead l i, .flag true) ∈ pairs (fun _ => none) evs)
    (h2 : (.setHead l i', .flag true) ∈ pairs (fun _ => none) evs)
    (h3 : (.layerName i, .name n) ∈ pairs (fun _ => none) evs)
    (h4 : (.layerName i', .name n') ∈ pairs (fun _ => none) evs)
    (h5 : (.stackNames i, .names ns) ∈ pairs (fun _ => none) evs)
    (h6 : (.stackNames i', .names ns') ∈ pairs (fun _ => none) evs) : n ∈ ns' ∨ n' ∈ ns := by
  obtain ⟨before', last, s, B, he, k1, k2⟩ := h
  obtain ⟨x1, x2⟩ := List.append_inj' he rfl
  clear he
  cases x1
  cases x2
  obtain ⟨w, _, _⟩ := Going.lives (l := l) k1 .start fun evs hm => hc evs (by simp [hm])
  have hl : Careful l evs := hc _ (by simp)
  obtain ⟨a, m, v, a1, a2, a3, _⟩ := pairs_setHead k2 w.going hl h1
  obtain ⟨a', m', v', b1, b2, b3, _⟩ := pairs_setHead k2 w.going hl h2
  have q3 := name_right (pairs_kept k2 w.alone (fun _ => trivial) _ _ h3 trivial)
  have q4 := name_right (pairs_kept k2 w.alone (fun _ => trivial) _ _ h4 trivial)
  obtain ⟨x, _, e5, x1, x2⟩ :=
    stackNames_right (pairs_kept k2 w.alone (fun _ => trivial) _ _ h5 trivial)
  obtain ⟨y, _, e6, y1, y2⟩ :=
    stackNames_right (pairs_kept k2 w.alone (fun _ => trivial) _ _ h6 trivial)
  cases e5
  cases e6
  rw [a1] at q3 x1
  rw [b1] at q4 y1
  rw [a2] at b2
  cases q3; cases q4; cases x1; cases y1; cases b2
  exact (a3.total b3).imp (y2 _).2 (x2 _).2

/-- The version of a head that is read later is not smaller; with the same version it is the same
layer, otherwise the layer that was read before is below it. -/
theorem C67_versions {evss : List (List (Conc.Event K V L))} {a wa b wb : List (Conc.Event K V L)}
    (h : LivesWhole evss) (hp : After evss a wa b wb) (hc : ∀ evs ∈ evss, Careful l evs)
    {i v n : Nat} {r : Ans K V L} (h1 : (.head l, .head (some i) v) ∈ pairs (fun _ => none) a)
    (h2 : (.layerName i, .name n) ∈ pairs (fun _ => none) wa)
    (h3 : (.head l, r) ∈ pairs (fun _ => none) b) :
    ∃ j v', r = .head (some j) v' ∧ v ≤ v' ∧
      (v = v' → ∀ r', (.layerName j, r') ∈ pairs (fun _ => none) wb → r' = .name n) ∧
      ∀ r', (.stackNames j, r') ∈ pairs (fun _ => none) wb → ∃ ns, r' = .names ns ∧ n ∈ ns := by
  obtain ⟨A1, M1, A2, E2, s1, s2, E1, g1, k1, c1, g2, o1, t1, g3, k2, c2, g4, o2, t2, w1, e1, w2, e2,
    hh⟩ := hp.states h hc
  obtain ⟨n', m, v1, q1, q2, q3, q3', q3'', _⟩ := (pairs_headRead k1 g1 c1 h1).2 i v rfl
  have q4 := name_right (pairs_kept e1 w1.alone (fun _ => trivial) _ _ h2 trivial)
  have q5 := hh i n' q1
  rw [q4] at q5
  cases q5
  obtain ⟨o, va, q6, q6', q6'', q7⟩ := o1 _ _ q2
  obtain ⟨m', rfl, q8⟩ := q7 m rfl
  have q9 : A2.now.log.Ancestor n m' :=
    (t1.ancestor g2.wf.now (g2.wf.now.heads _ _ _ q2) q3'').then q8
  obtain ⟨r1, r2⟩ := pairs_headRead k2 g3 c2 h3
  obtain ⟨j, v', rfl, q10, r3⟩ := r1 _ _ q6
  cases j with
  | none => cases r3 rfl
  | some j =>
    obtain ⟨x, _, _, x1, _, _, _, _, x2⟩ := r2 j v' rfl
    refine ⟨j, v', rfl, by omega, fun hv r' hr' => ?_, fun r' hr' => ?_⟩
    · obtain ⟨y, rfl, y1⟩ :=
        layerName_right (pairs_kept e2 w2.alone (fun _ => trivial) _ _ hr' trivial)
      rw [x1] at y1
      cases y1
      have z1 := (x2 _ _ q6).1 (by omega)
      have z2 := q6'' (by omega)
      have z3 := q3' (by omega)
      rw [z1] at z2
      cases z2
      rw [z3]
    · obtain ⟨y, ns, rfl, y1, y2⟩ :=
        stackNames_right (pairs_kept e2 w2.alone (fun _ => trivial) _ _ hr' trivial)
      rw [x1] at y1
      cases y1
      refine ⟨ns, rfl, (y2 n).2 (History.Ancestor.then ?_ ((x2 _ _ q6).2 m' rfl))⟩
      exact t2.ancestor g3.wf.now (g3.wf.now.heads _ _ _ q6) q9

/-- The store in memory or on disk: `C67_not_lost` holds of all that happens, unless a call goes on
outside of the contract. Missing: calls outside of the contract, as in C64 and C66. -/
theorem C67_store_partial [LinearOrder K] [LinearOrder V] {disk : Bool}
    {evss : List (List (Conc.Event K V L))} {a wa b wb : List (Conc.Event K V L)}
    (h : Lives { session := { disk := disk } } evss) (hp : After evss a wa b wb)
    (hc : ∀ evs ∈ evss, Careful l evs)
    {i n : Nat} {r : Ans K V L} (h1 : (.setHead l i, .flag true) ∈ pairs (fun _ => none) a)
    (h2 : (.layerName i, .name n) ∈ pairs (fun _ => none) wa)
    (h3 : (.head l, r) ∈ pairs (fun _ => none) b) :
    (∃ j v, r = .head (some j) v ∧ ∀ r', (.stackNames j, r') ∈ pairs (fun _ => none) wb →
      ∃ ns, r' = .names ns ∧ n ∈ ns) ∨
    ∃ pre bad post s, evss = pre ++ bad :: post ∧ LivesKept {} pre s ∧ Left { now := s } bad := by
  have whole : ∀ {before : List (List (Conc.Event K V L))} {evs : List (Conc.Event K V L)},
      evss = before ++ [evs] → LivesWhole evss ∨
      ∃ pre bad post s, evss = pre ++ bad :: post ∧ LivesKept {} pre s ∧ Left { now := s } bad := by
    rintro before evs rfl
    exact (lives_kept before evs h CSim.start).imp_left
      fun ⟨s, B, k1, k2⟩ => ⟨before, evs, s, B, rfl, k1, k2⟩
  have : ∃ before evs, evss = before ++ [evs] := by
    cases hp with
    | same => exact ⟨_, _, rfl⟩
    | later => exact ⟨_, _, rfl⟩
  obtain ⟨before, evs, he⟩ := this
  exact (whole he).imp_left fun hw => C67_not_lost hw hp hc h1 h2 h3

end Main

/-! ### A graph that goes on -/

/-- A process that makes a graph and a layer and sets the head. -/
def early : List (Conc.Event Nat Nat Nat) :=
  [.inv 0 (.createGraph 7), .inv 1 .createBase, .act 0 1, .act 1 5, .ret 0 .done,
   .ret 1 (.builder 0), .inv 1 (.commit 0), .act 1 6, .act 1 7, .ret 1 (.layer 0),
   .inv 0 (.setHead 7 0), .act 0 8, .ret 0 (.flag true), .inv 0 (.head 7), .inv 1 (.layerName 0),
   .act 0 8, .act 1 8, .ret 0 (.head (some 1) 1), .ret 1 (.name 5), .inv 0 (.layerName 1),
   .act 0 8, .ret 0 (.name 5)]

/-- A process that puts a layer on top; the head is set twice at the same time. -/
def late1 : List (Conc.Event Nat Nat Nat) :=
  [.inv 0 (.head 7), .act 0 9, .ret 0 (.head (some 0) 1), .inv 0 (.openWrite 0), .act 0 9,
   .ret 0 (.builder 0), .inv 0 (.commit 0), .act 0 10, .act 0 11, .ret 0 (.layer 1),
   .inv 0 (.setHead 7 0), .inv 1 (.setHead 7 1), .act 0 12, .act 1 12, .ret 1 (.flag true),
   .ret 0 (.flag true), .inv 0 (.stackNames 1), .inv 1 (.layerName 1), .act 0 12, .act 1 12,
   .ret 0 (.names [5, 9]), .ret 1 (.name 9), .inv 0 (.stackNames 0), .inv 1 (.layerName 0),
   .act 0 12, .act 1 12, .ret 0 (.names [5]), .ret 1 (.name 5)]

/-- The head is read. -/
def late2 : List (Conc.Event Nat Nat Nat) :=
  [.inv 0 (.setHead 7 1), .act 0 12, .ret 0 (.flag true), .inv 0 (.head 7), .act 0 12,
   .ret 0 (.head (some 2) 4), .inv 0 (.stackNames 2), .act 0 12, .ret 0 (.names [5, 9])]

/-- The hypothesis `LivesWhole`. -/
theorem early_late : LivesWhole [early, late1 ++ late2] := by
  have fits : ∀ {T : VTriple Nat Nat → Prop}, (∀ t, ¬ T t) → ({} : Ids Nat Nat).Fits {} (after T []) := by
    intro T hT
    constructor <;> simp [after, Ids.code, added, removed, hT]
    all_goals (intro a h; omega)
  have more : ∀ {A A' : CState Nat Nat Nat} {e rest} {P : CState Nat Nat Nat → Prop},
      Goes A e A' → (∃ B, Kept A' rest B ∧ P B) →
      ∃ B, Kept A (e :: rest) B ∧ P B := fun h1 ⟨B, h2, h3⟩ => ⟨B, .cons h1 h2, h3⟩
  have back : ∀ {A : CState Nat Nat Nat} {t r r' held rest}
      {P : CState Nat Nat Nat → Prop}, A.calls t = some (.answered r held) →
      CState.numbered A.now.handles.length r = r' → (∃ B, Kept _ rest B ∧ P B) →
      ∃ B, Kept A (.ret t r' :: rest) B ∧ P B := fun h1 h2 h3 => h2 ▸ more (.ret h1) h3
  have none_asked : ∀ {P : Nat → Prop}, ∀ n ∈ ([] : List Nat), P n := by intro P n hn; cases hn
  have same : ∀ {s : State Nat Nat Nat} {new : Nat}, ∀ n, s.Fresh n → n ≠ new → s.Fresh n :=
    fun n h _ => h
  have start : (∃ B, Kept ({} : CState Nat Nat Nat) early B ∧ ∃ s1, Reopened B.now s1 ∧
      ∃ C, Kept { now := s1 } (late1 ++ late2) C ∧ True) → LivesWhole [early, late1 ++ late2] :=
    fun ⟨B, h1, s1, h2, C, h3, _⟩ =>
      ⟨[early], late1 ++ late2, s1, C, rfl, .stop h1 h2 .nil, h3⟩
  refine start ?_
  refine more (.inv rfl) ?_
  refine more (.inv rfl) ?_
  refine more (.act rfl ⟨trivial, none_asked⟩ (.once (.createGraph rfl) (held := []) rfl) same) ?_
  refine more (.act rfl ⟨trivial, none_asked⟩ (.once (.createBase (new := 5) ?_) (held := []) rfl) ?_) ?_
  · simp [State.Fresh, History.known, State.setGraph]
  · simp [State.Fresh, History.known, State.setGraph, eq_comm]
  refine back rfl rfl ?_
  refine back rfl rfl ?_
  refine more (.inv rfl) ?_
  refine more (.act rfl ⟨⟨_, rfl⟩, none_asked⟩ (.close (.inl ⟨rfl, rfl⟩) rfl rfl) ?_) ?_
  · simp [State.Fresh, History.known, State.setGraph, State.setBuilder]
    omega
  refine more (.act rfl trivial (.write rfl (fits (by simp [History.below])) (.inr ⟨rfl, rfl, rfl⟩)) ?_) ?_
  · simp [State.Fresh, History.known, State.setGraph, State.setBuilder, State.add, Spec.Event.new]
    omega
  refine back rfl rfl ?_
  refine more (.inv rfl) ?_
  refine more (.act rfl ⟨⟨_, rfl⟩, none_asked⟩
    (.once (.setHead (o := none) (v := 0) rfl rfl ?_) (held := []) rfl) same) ?_
  · intro r hr; cases hr
  refine back rfl rfl ?_
  refine more (.inv rfl) ?_
  refine more (.inv rfl) ?_
  refine more (.act rfl ⟨trivial, none_asked⟩ (.once (.head (n := 5) (v := 1) rfl) (held := [5]) rfl) same) ?_
  refine more (.act rfl ⟨⟨_, rfl⟩, none_asked⟩ (.once (.layerName rfl) (held := []) rfl) same) ?_
  refine back rfl rfl ?_
  refine back rfl rfl ?_
  refine more (.inv rfl) ?_
  refine more (.act rfl ⟨⟨_, rfl⟩, none_asked⟩ (.once (.layerName rfl) (held := []) rfl) same) ?_
  refine back rfl rfl ?_
  refine ⟨_, .nil, _, ⟨[], rfl, ?_, ?_, ?_⟩, ?_⟩
  · intro n hn; simp [State.setGraph, State.setBuilder, State.add, State.hold] at hn
  · intro b hb h1 _
    simp [History.known, State.setGraph, State.setBuilder, State.add, State.hold,
      Spec.Event.new] at hb h1
    simp [hb] at h1
  · intro n hn; cases hn
  refine more (.inv rfl) ?_
  refine more (.act rfl ⟨trivial, none_asked⟩ (.once (.head (n := 5) (v := 1) rfl) (held := [5]) rfl) same) ?_
  refine back rfl rfl ?_
  refine more (.inv rfl) ?_
  refine more (.act rfl ⟨⟨_, rfl⟩, none_asked⟩
    (.once (.openWrite (new := 9) rfl ?_) (held := []) rfl) ?_) ?_
  · simp [State.Fresh, History.known, State.setGraph, State.setBuilder, State.add, State.hold,
      Spec.Event.new]
  · simp [State.Fresh, History.known, State.setGraph, State.setBuilder, State.add, State.hold,
      Spec.Event.new]
    omega
  refine back rfl rfl ?_
  refine more (.inv rfl) ?_
  refine more (.act rfl ⟨⟨_, rfl⟩, none_asked⟩ (.close (.inl ⟨rfl, rfl⟩) rfl rfl) ?_) ?_
  · simp [State.Fresh, History.known, State.setGraph, State.setBuilder, State.add, State.hold,
      Spec.Event.new]
    try omega
  refine more (.act rfl trivial (.write rfl (fits ?_) (.inr ⟨rfl, rfl, rfl⟩)) ?_) ?_
  · simp [History.below, History.triples, State.setGraph, State.setBuilder, State.add, State.hold, after, added,
      Spec.Event.new]
  · simp [State.Fresh, History.known, State.setGraph, State.setBuilder, State.add, State.hold,
      Spec.Event.new]
    omega
  refine back rfl rfl ?_
  refine more (.inv rfl) ?_
  refine more (.inv rfl) ?_
  refine more (.act rfl ⟨⟨_, rfl⟩, none_asked⟩
    (.once (.setHead (n := 5) (o := some 5) (v := 1) rfl rfl ?_) (held := []) rfl) same) ?_
  · intro r hr; cases hr; exact .self _
  refine more (.act rfl ⟨⟨_, rfl⟩, none_asked⟩
    (.once (.setHead (n := 9) (o := some 5) (v := 2) rfl rfl ?_) (held := []) rfl) same) ?_
  · intro r hr; cases hr; exact .up rfl (.self _)
  refine back rfl rfl ?_
  refine back rfl rfl ?_
  refine more (.inv rfl) ?_
  refine more (.inv rfl) ?_
  refine more (.act rfl ⟨⟨_, rfl⟩, none_asked⟩ (.once (.stackNames (n := 9) rfl
    (.step (p := 5) (ns := [5]) rfl (.root rfl))) (held := []) rfl) same) ?_
  refine more (.act rfl ⟨⟨_, rfl⟩, none_asked⟩ (.once (.layerName rfl) (held := []) rfl) same) ?_
  refine back rfl rfl ?_
  refine back rfl rfl ?_
  refine more (.inv rfl) ?_
  refine more (.inv rfl) ?_
  refine more (.act rfl ⟨⟨_, rfl⟩, none_asked⟩ (.once (.stackNames (n := 5) rfl
    (.root rfl)) (held := []) rfl) same) ?_
  refine more (.act rfl ⟨⟨_, rfl⟩, none_asked⟩ (.once (.layerName rfl) (held := []) rfl) same) ?_
  refine back rfl rfl ?_
  refine back rfl rfl ?_
  refine more (.inv rfl) ?_
  refine more (.act rfl ⟨⟨_, rfl⟩, none_asked⟩
    (.once (.setHead (n := 9) (o := some 9) (v := 3) rfl rfl ?_) (held := []) rfl) same) ?_
  · intro r hr; cases hr; exact .self _
  refine back rfl rfl ?_
  refine more (.inv rfl) ?_
  refine more (.act rfl ⟨trivial, none_asked⟩ (.once (.head (n := 9) (v := 4) rfl) (held := [9]) rfl) same) ?_
  refine back rfl rfl ?_
  refine more (.inv rfl) ?_
  refine more (.act rfl ⟨⟨_, rfl⟩, none_asked⟩ (.once (.stackNames (n := 9) rfl
    (.step (p := 5) (ns := [5]) rfl (.root rfl))) (held := []) rfl) same) ?_
  exact back rfl rfl ⟨_, .nil, trivial⟩

/-- The hypotheses `After`, in one process and in two. -/
example : After [early, late1 ++ late2] late1 (late1 ++ late2) late2 (late1 ++ late2) ∧
    After [early, late1 ++ late2] early early (late1 ++ late2) (late1 ++ late2) :=
  ⟨.same (before := [early]), .later (before := []) (mid := [])⟩

/-- The hypothesis `Careful`. -/
example : ∀ evs ∈ [early, late1 ++ late2], Careful 7 evs := by
  intro evs hm t c hc hl
  have : ∀ e ∈ early ++ late1 ++ late2, ∀ t c, e = .inv t c → changes 7 c → gentle c := by
    simp only [early, late1, late2, List.cons_append, List.nil_append, List.forall_mem_cons]
    refine ⟨?_, ?_, ?_, ?_, ?_, ?_, ?_, ?_, ?_, ?_, ?_, ?_, ?_, ?_, ?_, ?_, ?_, ?_, ?_, ?_, ?_, ?_,
      ?_, ?_, ?_, ?_, ?_, ?_, ?_, ?_, ?_, ?_, ?_, ?_, ?_, ?_, ?_, ?_, ?_, ?_, ?_, ?_, ?_, ?_, ?_, ?_,
      ?_, ?_, ?_, ?_, ?_, ?_, ?_, ?_, ?_, ?_, ?_, ?_, ?_, ?_⟩
    all_goals first
      | exact fun e h => absurd h List.not_mem_nil
      | (rintro t c ⟨⟩ h; first | trivial | exact h.elim)
      | (intro t c h; cases h)
  refine this _ ?_ t c rfl hl
  rcases List.mem_cons.1 hm with rfl | hm
  · simp [hc]
  · cases List.mem_singleton.1 hm
    rcases List.mem_append.1 hc with hc | hc <;> simp [hc]

/-- The other hypotheses of `C67_not_lost`, `C67_in_order` and `C67_versions`, in two processes and
in one, and those of `C67_one_line`. -/
example : (.setHead 7 0, .flag true) ∈ pairs (fun _ => none) early ∧
    (.layerName 0, .name 5) ∈ pairs (fun _ => none) early ∧
    (.head 7, .head (some 1) 1) ∈ pairs (fun _ => none) early ∧
    (.layerName 1, .name 5) ∈ pairs (fun _ => none) early ∧
    (.setHead 7 0, .flag true) ∈ pairs (fun _ => none) late1 ∧
    (.setHead 7 1, .flag true) ∈ pairs (fun _ => none) late1 ∧
    (.head 7, .head (some 0) 1) ∈ pairs (fun _ => none) late1 ∧
    (.layerName 0, .name 5) ∈ pairs (fun _ => none) (late1 ++ late2) ∧
    (.layerName 1, .name 9) ∈ pairs (fun _ => none) (late1 ++ late2) ∧
    (.stackNames 0, .names [5]) ∈ pairs (fun _ => none) (late1 ++ late2) ∧
    (.stackNames 1, .names [5, 9]) ∈ pairs (fun _ => none) (late1 ++ late2) ∧
    (.setHead 7 1, .flag true) ∈ pairs (fun _ => none) late2 ∧
    (.head 7, .head (some 2) 4) ∈ pairs (fun _ => none) late2 ∧
    (.stackNames 2, .names [5, 9]) ∈ pairs (fun _ => none) (late1 ++ late2) := by
  refine ⟨?_, ?_, ?_, ?_, ?_, ?_, ?_, ?_, ?_, ?_, ?_, ?_, ?_, ?_⟩ <;> decide

/-- Whether `Careful 7` holds. -/
def carefulB (evs : List (Conc.Event Nat Nat Nat)) : Bool :=
  evs.all fun e => match e with
    | .inv _ (.deleteGraph _) | .inv _ (.dropGraph _) | .inv _ (.forceSetHead _ _)
    | .inv _ (.forceSetHeadVersion _ _ _) => false
    | _ => true

theorem carefulB_careful {evs : List (Conc.Event Nat Nat Nat)} (h : carefulB evs = true) :
    Careful 7 evs := by
  intro t c hm hc
  have := List.all_eq_true.1 h _ hm
  cases c <;> trivial

/-- The hypotheses of `C67_store_partial`: one process makes a layer the head, the next finds
it. -/
example : ∃ evs evs' : List (Conc.Event Nat Nat Nat),
    Lives { session := { disk := true } } [evs, evs'] ∧ After [evs, evs'] evs evs evs' evs' ∧
    (∀ e ∈ [evs, evs'], Careful 7 e) ∧
    (.setHead 7 1, .flag true) ∈ pairs (fun _ => none) evs ∧
    (.layerName 1, .name 35) ∈ pairs (fun _ => none) evs ∧
    (.head 7, .head (some 0) 1) ∈ pairs (fun _ => none) evs' ∧
    (.stackNames 0, .names [8, 35]) ∈ pairs (fun _ => none) evs' := by
  let P : List (Move Nat Nat Nat) := whole 0 0 (before ++ [.setHead 7 1, .layerName 1])
  let Q : List (Move Nat Nat Nat) := whole 0 200 [.head 7, .stackNames 0]
  have h : ((playTo { session := { disk := true } } P).bind fun N =>
      (playC { session := { disk := true } } P).bind fun evs =>
      (playC (N.opened []) Q).bind fun evs' =>
      if leavesB N [] && carefulB evs && carefulB evs' &&
        (pairs (fun _ => none) evs).contains (.setHead 7 1, .flag true) &&
        (pairs (fun _ => none) evs).contains (.layerName 1, .name 35) &&
        (pairs (fun _ => none) evs').contains (.head 7, .head (some 0) 1) &&
        (pairs (fun _ => none) evs').contains (.stackNames 0, .names [8, 35])
      then some () else none) = some () := by decide +kernel
  obtain ⟨N, h1, h2⟩ := Option.bind_eq_some_iff.mp h
  obtain ⟨evs, h3, h4⟩ := Option.bind_eq_some_iff.mp h2
  obtain ⟨evs', h5, h6⟩ := Option.bind_eq_some_iff.mp h4
  split at h6
  · rename_i h7
    simp only [Bool.and_eq_true, List.contains_iff_mem] at h7
    obtain ⟨⟨⟨⟨⟨⟨a1, a2⟩, a3⟩, a4⟩, a5⟩, a6⟩, a7⟩ := h7
    obtain ⟨evs2, b1, b2⟩ := playTo_runs h1
    rw [h3] at b1
    cases b1
    refine ⟨evs, evs', .stop b2 (leavesB_leaves a1) (.last (playC_trace h5).choose_spec),
      .later (before := []) (mid := []), ?_, a4, a5, a6, a7⟩
    intro e he
    rcases List.mem_cons.1 he with rfl | he
    · exact carefulB_careful a2
    · cases List.mem_singleton.1 he
      exact carefulB_careful a3
  · cases h6

end Verif.Conc
