import Verif.Lemmas.ConcRuns
import Verif.Lemmas.ConcSerial
import Verif.Lemmas.ConcPlay
import Verif.Lemmas.ConcKept

/-!
C64: a program that makes many calls at the same time on a store cannot tell it from the simple
store of `Verif/ConcSpec.lean`.
-/

namespace Verif.Conc

open Spec SimpleBuilder Store Api

section Main

variable {K V L : Type} [LinearOrder K] [LinearOrder V] [DecidableEq L]

/-- C64: whatever calls are made at the same time on a new store, in memory or on disk,
and however their steps interleave, the answers are those of the simple store, up to the first step of a call outside of
the contract. This holds for all names that new layers may get, all orders of hash maps and of
parallel workers, and all times at which layers are cached and cached layers vanish. Missing:
calls outside of the contract, see `CState.InContract`, and calls that are dropped while they
write files. -/
theorem C64_concurrent_partial {disk : Bool} {evs : List (Conc.Event K V L)}
    (h : Trace { session := { disk := disk } } evs) : Allowed {} evs := by
  obtain ⟨N, h⟩ := h
  exact allowed h CSim.start

omit [LinearOrder K] [LinearOrder V] in
/-- Calls that are made one after the other may answer only what `Verif/ApiSpec.lean` says. -/
theorem C64_sequential {calls : List (Nat × Req K V L × Ans K V L × List Nat)}
    (h : Allowed {} (serial calls)) : Explains {} (calls.map fun x => (x.2.1, x.2.2.1)) :=
  serial_explains calls {} (fun _ => rfl) h

/-- Either all that happens is as in the simple store, or it is up to a step of a call outside of
the contract. -/
theorem C64_kept_partial {disk : Bool} {evs : List (Conc.Event K V L)}
    (h : Trace { session := { disk := disk } } evs) : (∃ B, Kept {} evs B) ∨ Left {} evs := by
  obtain ⟨N, h⟩ := h
  rcases kept h CSim.start with ⟨B, _, h, _⟩ | h
  · exact .inl ⟨B, h⟩
  · exact .inr h

omit [LinearOrder K] [LinearOrder V] in
/-- A question about a layer in hand, once answered, is answered rightly for ever: all answers
that were given while calls were made at the same time are right in the last state. -/
theorem C64_lasting {evs : List (Conc.Event K V L)} {B : CState K V L} (h : Kept {} evs B)
    {c : Req K V L} {r : Ans K V L} (hc : (c, r) ∈ pairs (fun _ => none) evs) (hl : lasting c) :
    Step B.now c r B.now :=
  pairs_kept h .start (fun _ => trivial) c r hc hl

omit [LinearOrder K] [LinearOrder V] in
/-- A layer in hand has the same triples whenever it is asked. -/
theorem C64_same_triples {evs : List (Conc.Event K V L)} {B : CState K V L} (h : Kept {} evs B)
    {i : Nat} {t : VTriple K V} {r r' : Ans K V L}
    (h1 : (.query i (.has t), r) ∈ pairs (fun _ => none) evs)
    (h2 : (.query i (.has t), r') ∈ pairs (fun _ => none) evs) : r = r' := by
  have right : ∀ r s', Step B.now (.query i (.has t)) r s' → ∃ n b, B.now.handles[i]? = some n ∧
      r = .answer (.flag b) ∧ (b = true ↔ B.now.log.triples n t) := by
    intro r s' hs
    cases hs with
    | query hn hr =>
      rename_i a
      match a, hr with
      | .flag b, hr => exact ⟨_, b, hn, rfl, hr⟩
    | rollupUptoNothing _ _ _ hc => rcases hc with hc | hc <;> cases hc
    | rollupUptoWrong _ _ _ _ _ hc => rcases hc with hc | hc <;> cases hc
    | rollupUpto _ _ _ _ _ _ _ hc => rcases hc with hc | hc <;> cases hc
    | commitTwice _ _ hc => rcases hc with hc | hc <;> cases hc
  obtain ⟨n, b, g1, rfl, g3⟩ := right r _ (C64_lasting h h1 trivial)
  obtain ⟨n', b', k1, rfl, k3⟩ := right r' _ (C64_lasting h h2 trivial)
  rw [g1] at k1
  cases k1
  rw [show b = b' from Bool.eq_iff_iff.2 (g3.trans k3.symm)]

omit [LinearOrder K] [LinearOrder V] in
/-- The simple store never panics, and has all that it gave out. -/
theorem C64_no_panic {past : List (State K V L)} {s s' : State K V L} {p : Conc.Pending K V L}
    {r : Ans K V L} {held : List Nat} (h : Effect past s p s' (.answered r held)) :
    r ≠ .panicked ∧ r ≠ .invalid := by
  generalize hq : Conc.Pending.answered r held = q at h
  cases h <;> cases hq
  case once hs _ => exact C56_no_panic hs
  case write hr => rcases hr with ⟨_, rfl, _⟩ | ⟨_, rfl, _⟩ <;> simp
  all_goals simp

end Main

/-! ### Programs -/

/-- A graph and two layers, one on the other. -/
def before : List (Req Nat Nat Nat) :=
  [.createGraph 7, .createBase, .edit 0 (.addValue ⟨1, 2, .node 3⟩), .commit 0, .openWrite 0,
   .edit 1 (.addValue ⟨1, 2, .value 4⟩), .commit 1]

def beforeAnswers : List (Ans Nat Nat Nat) :=
  [.done, .builder 0, .done, .layer 0, .builder 1, .done, .layer 1]

/-- A rollup made twice, a load, a commit and a change of the same builder at the same time, with
layers that vanish. -/
def crowd : List (Move Nat Nat Nat) := whole 0 0 before ++
  [.evict, .inv 1 (.rollup 1), .inv 2 (.getLayer 35), .act 1 100, .act 2 101, .act 1 102,
   .act 2 103, .act 1 104, .inv 3 .createBase, .act 3 105, .ret 3, .inv 3 (.applyDelta 2 1),
   .inv 4 (.commit 2), .act 1 106, .act 3 107, .act 1 108, .act 4 109, .cache, .act 1 110,
   .act 3 111, .act 3 112, .ret 3, .act 4 113, .act 1 114, .act 1 115, .ret 1, .evict,
   .inv 1 (.rollup 1), .act 1 116, .act 1 117, .act 1 118, .act 1 119, .act 1 120, .act 1 121,
   .act 1 122, .act 1 128, .act 4 123, .act 4 124, .ret 4, .ret 2, .inv 2 (.query 2 .triples), .act 2 125,
   .ret 2, .inv 2 (.query 3 .triples), .act 2 126, .ret 2, .ret 1, .inv 1 (.stackNames 1),
   .act 1 127, .ret 1]

/-- The hypothesis of `C64_concurrent_partial`. -/
example : ∃ evs, Trace {} evs ∧ answers evs = beforeAnswers.map (fun r => (0, r)) ++
    [(3, .builder 2), (3, .done), (1, .done), (4, .layer 2), (2, .layer 3),
     (2, .answer (.list [])), (2, .answer (.list [⟨1, 1, 2⟩, ⟨1, 1, 3⟩])), (1, .done),
     (1, .names [8, 35])] := by
  have h : ((playC {} crowd).map answers) = some (beforeAnswers.map (fun r => (0, r)) ++
    [(3, .builder 2), (3, .done), (1, .done), (4, .layer 2), (2, .layer 3),
     (2, .answer (.list [])), (2, .answer (.list [⟨1, 1, 2⟩, ⟨1, 1, 3⟩])), (1, .done),
     (1, .names [8, 35])]) := by decide +kernel
  obtain ⟨evs, h1, h2⟩ := Option.map_eq_some_iff.mp h
  exact ⟨evs, playC_trace h1, h2⟩

/-- A rollup down to the first of three layers while no layer is cached. The first layer, which it loads, is
put into the cache. -/
def downTo : List (Move Nat Nat Nat) :=
  whole 0 0 (before ++ [.openWrite 1, .edit 2 (.addValue ⟨5, 2, .node 3⟩), .commit 2]) ++
  [.evict, .inv 1 (.rollupUpto 2 0), .act 1 100, .act 1 101, .act 1 102, .act 1 103, .cache,
   .act 1 104, .act 1 105, .act 1 106, .act 1 107, .ret 1, .evict] ++
  whole 1 200 [.getLayer 59, .query 3 (.has ⟨1, 2, .value 4⟩), .query 3 (.has ⟨5, 2, .node 3⟩),
    .query 3 (.has ⟨5, 2, .value 4⟩), .stackNames 3]

def downAnswers : List (Nat × Ans Nat Nat Nat) :=
  beforeAnswers.map (fun r => (0, r)) ++
  [(0, .builder 2), (0, .done), (0, .layer 2), (1, .done), (1, .layer 3),
   (1, .answer (.flag true)), (1, .answer (.flag true)), (1, .answer (.flag false)), (1, .names [8, 35, 59])]

example : ∃ evs, Trace {} evs ∧ answers evs = downAnswers := by
  have h : ((playC {} downTo).map answers) = some downAnswers := by decide +kernel
  obtain ⟨evs, h1, h2⟩ := Option.map_eq_some_iff.mp h
  exact ⟨evs, playC_trace h1, h2⟩

example : [105, 106, 107].map (fun k => (playTo {} (downTo.take k)).map fun M =>
    (M.loaded.map (·.name), (M.session.cache 8).isSome)) =
    [some ([8, 35, 59, 8, 35, 59, 8, 35, 8, 35, 8, 8], false),
     some ([8, 8, 35, 59, 8, 35, 59, 8, 35, 8, 35, 8, 8], false),
     some ([8, 8, 35, 59, 8, 35, 59, 8, 35, 8, 35, 8, 8], true)] := by decide +kernel

/-- The hypothesis of `C64_sequential`. -/
example : ∃ calls : List (Nat × Req Nat Nat Nat × Ans Nat Nat Nat × List Nat), Allowed {} (serial calls) ∧
    (calls.map fun x => (x.2.1, x.2.2.1)) = before.zip beforeAnswers := by
  refine ⟨(((before.zip beforeAnswers).zip (List.range 7)).map
    fun x => (0, x.1.1, x.1.2, (List.range 8).map (x.2 * 8 + ·))), ?_, by decide +kernel⟩
  exact C64_concurrent_partial (disk := false) (playC_trace (ms := whole 0 0 before) (by decide +kernel))

/-- A query while a builder is made. -/
def asking : List (Conc.Event Nat Nat Nat) :=
  [.inv 0 .createBase, .act 0 5, .ret 0 (.builder 0), .inv 0 (.commit 0), .act 0 6, .act 0 7,
   .ret 0 (.layer 0), .inv 1 (.query 0 (.has ⟨1, 2, .node 3⟩)), .inv 2 .createBase, .act 2 9,
   .act 1 10, .inv 0 (.query 0 (.has ⟨1, 2, .node 3⟩)), .ret 1 (.answer (.flag false)),
   .ret 2 (.builder 1), .act 0 11, .ret 0 (.answer (.flag false))]

/-- The hypothesis of `C64_lasting` and `C64_same_triples`. -/
example : ∃ B, Kept ({} : CState Nat Nat Nat) asking B := by
  have fits : ({} : Ids Nat Nat).Fits {} (after (fun _ => False) []) := by
    constructor <;> simp [after, Ids.code, added]
    all_goals (intro a h; omega)
  have more : ∀ {A A' : CState Nat Nat Nat} {e rest}, Goes A e A' → (∃ B, Kept A' rest B) →
      ∃ B, Kept A (e :: rest) B := fun h1 ⟨B, h2⟩ => ⟨B, .cons h1 h2⟩
  have back : ∀ {A : CState Nat Nat Nat} {t r r' held rest}, A.calls t = some (.answered r held) →
      CState.numbered A.now.handles.length r = r' → (∃ B, Kept _ rest B) →
      ∃ B, Kept A (.ret t r' :: rest) B := fun h1 h2 h3 => h2 ▸ more (.ret h1) h3
  have none_asked : ∀ {P : Nat → Prop}, ∀ n ∈ ([] : List Nat), P n := by intro P n hn; cases hn
  refine more (.inv rfl) ?_
  refine more (.act rfl ⟨trivial, none_asked⟩ (.once (.createBase (new := 5) ?_) rfl) ?_) ?_
  · simp [State.Fresh, History.known]
  · simp [State.Fresh, History.known, eq_comm]
  refine back rfl rfl ?_
  refine more (.inv rfl) ?_
  refine more (.act rfl ⟨⟨_, rfl⟩, none_asked⟩ (.close (.inl ⟨rfl, rfl⟩) rfl rfl) ?_) ?_
  · simp only [State.Fresh, History.known, State.setBuilder]
    intro n h _
    simpa using h
  refine more (.act rfl trivial (.write rfl fits (.inr ⟨rfl, rfl, rfl⟩)) ?_) ?_
  · simp [State.Fresh, History.known, State.setBuilder, State.add, Spec.Event.new]
    omega
  refine back rfl rfl ?_
  refine more (.inv rfl) ?_
  refine more (.inv rfl) ?_
  refine more (.act rfl ⟨trivial, none_asked⟩ (.once (.createBase (new := 9) ?_) rfl) ?_) ?_
  · simp [State.Fresh, History.known, State.setBuilder, State.add, Spec.Event.new]
  · simp [State.Fresh, History.known, State.setBuilder, State.add, Spec.Event.new]
    omega
  refine more (.act rfl ⟨⟨⟨_, rfl⟩, by simp⟩, none_asked⟩
    (.once (.query (a := .flag false) rfl ?_) (held := []) rfl) ?_) ?_
  · simp [Right, History.triples, State.add, after, added, Spec.Event.new]
  · exact fun n h _ => h
  refine more (.inv rfl) ?_
  refine back rfl rfl ?_
  refine back rfl rfl ?_
  refine more (.act rfl ⟨⟨⟨_, rfl⟩, by simp⟩, none_asked⟩
    (.once (.query (a := .flag false) rfl ?_) (held := []) rfl) ?_) ?_
  · simp [Right, History.triples, State.add, after, added, Spec.Event.new]
  · exact fun n h _ => h
  exact back rfl rfl ⟨_, .nil⟩

/-- The specification does not allow wrong answers. -/
example : ¬ Allowed ({} : CState Nat Nat Nat) [.inv 0 (.createGraph 7), .act 0 0, .ret 0 .failed] := by
  intro h
  have := C64_sequential (calls := [(0, .createGraph 7, .failed, [0])]) h
  cases this with
  | out h => exact h trivial
  | step _ h _ =>
    generalize hr : Ans.failed = r at h
    generalize hc : Req.createGraph 7 = c at h
    cases h <;> cases hr <;> cases hc
    · rename_i h; exact h rfl
    all_goals (rename_i h; rcases h with h | h <;> cases h)

/-! ### `set_head` is not one step -/

theorem createGraph_inv {s s' : State Nat Nat Nat} {l : Nat} (h : Step s (.createGraph l) .done s') :
    s' = s.setGraph l (some (none, 0)) := by
  generalize hr : Ans.done = r at h
  generalize hc : Req.createGraph l = c at h
  cases h <;> cases hr <;> cases hc
  case createGraph => rfl
  all_goals (rename_i h; rcases h with h | h <;> cases h)

theorem openWrite_inv {s s' : State Nat Nat Nat} {h : Nat} {r : Ans Nat Nat Nat}
    (hs : Step s (.openWrite h) r s') : ∃ n new, s.handles[h]? = some n ∧ s.Fresh new ∧
      s' = { s with builders := s.builders ++ [⟨new, some n, some []⟩] } := by
  generalize hc : Req.openWrite h = c at hs
  cases hs <;> cases hc
  case openWrite h2 h1 => exact ⟨_, _, h1, h2, rfl⟩
  all_goals (rename_i h; rcases h with h | h <;> cases h)

theorem before_state {rest : List (Req Nat Nat Nat × Ans Nat Nat Nat)}
    (h : Explains {} (before.zip beforeAnswers ++ rest)) :
    ∃ (s : State Nat Nat Nat) (n m : Nat), Explains s rest ∧ s.graphs 7 = some (none, 0) ∧
      s.handles = [n, m] ∧ s.log.Ancestor n m := by
  cases h with
  | out h => exact absurd trivial h
  | step _ h1 h =>
  cases createGraph_inv h1
  cases h with
  | out h => exact absurd trivial h
  | step _ h1 h =>
  obtain ⟨n, fn, rfl⟩ := h1.createBase_inv
  cases h with
  | out h => exact absurd ⟨_, rfl, fun _ => ⟨.add _, rfl⟩⟩ h
  | step _ h1 h =>
  obtain ⟨c, _, rfl⟩ := h1.edit_inv (x := ⟨n, none, some []⟩) rfl rfl
  cases h with
  | out h => exact absurd ⟨_, rfl⟩ h
  | step _ h1 h =>
  obtain ⟨i, _, rfl⟩ := h1.commit_inv (x := ⟨n, none, some [c]⟩) rfl rfl
  cases h with
  | out h => exact absurd ⟨_, rfl⟩ h
  | step _ h1 h =>
  obtain ⟨n', m, hn, fm, rfl⟩ := openWrite_inv h1
  cases hn
  cases h with
  | out h => exact absurd ⟨_, rfl, fun _ => ⟨.add _, rfl⟩⟩ h
  | step _ h1 h =>
  obtain ⟨d, _, rfl⟩ := h1.edit_inv (x := ⟨m, some n, some []⟩) rfl rfl
  cases h with
  | out h => exact absurd ⟨_, rfl⟩ h
  | step _ h1 h =>
  obtain ⟨j, _, rfl⟩ := h1.commit_inv (x := ⟨m, some n, some [d]⟩) rfl rfl
  refine ⟨_, n, m, h, rfl, rfl, .up (p := n) ?_ (.self n)⟩
  show (if m = m then _ else _) = _
  rw [if_pos rfl]
  rfl

theorem setHead_true {s s' : State Nat Nat Nat} {l h : Nat} (hs : Step s (.setHead l h) (.flag true) s') :
    ∃ o v n, s.graphs l = some (o, v) ∧ s.handles[h]? = some n ∧
      s' = s.setGraph l (some (some n, v + 1)) := by
  generalize hc : Req.setHead l h = c at hs
  generalize hr : Ans.flag true = r at hs
  cases hs <;> cases hc <;> cases hr
  case setHead h1 h2 h3 => exact ⟨_, _, _, by assumption, by assumption, rfl⟩

theorem setHead_false {s s' : State Nat Nat Nat} {l h : Nat}
    (hs : Step s (.setHead l h) (.flag false) s') :
    ∃ r v n, s.graphs l = some (some r, v) ∧ s.handles[h]? = some n ∧ ¬ s.log.Ancestor r n := by
  generalize hc : Req.setHead l h = c at hs
  generalize hr : Ans.flag false = r at hs
  cases hs <;> cases hc <;> cases hr
  case setHeadRefused => exact ⟨_, _, _, by assumption, by assumption, by assumption⟩

/-- Both calls read the label, then both set it. -/
def race : List (Move Nat Nat Nat) :=
  [.inv 1 (.setHead 7 0), .inv 2 (.setHead 7 1), .act 1 100, .act 2 101, .act 1 102, .act 2 103,
   .ret 1, .ret 2]

/-- Two calls of `set_head` at the same time can answer what they cannot answer one after the
other, in any order: the head of a graph without a head is set to a layer, and is not set to a
child of that layer. -/
theorem C64_set_head_fails : ∃ evs : List (Conc.Event Nat Nat Nat), Trace {} evs ∧
    answers evs = beforeAnswers.map (fun r => (0, r)) ++ [(1, .flag true), (2, .flag false)] ∧
    (∃ pre post, evs = pre ++ [.inv 1 (.setHead 7 0), .inv 2 (.setHead 7 1)] ++ post ∧
      answers pre = beforeAnswers.map (fun r => (0, r))) ∧
    ¬ Explains {} (before.zip beforeAnswers ++ [(.setHead 7 0, .flag true), (.setHead 7 1, .flag false)]) ∧
    ¬ Explains {} (before.zip beforeAnswers ++ [(.setHead 7 1, .flag false), (.setHead 7 0, .flag true)]) := by
  have h : ((playC {} (whole 0 0 before ++ race)).map answers) =
      some (beforeAnswers.map (fun r => (0, r)) ++ [(1, .flag true), (2, .flag false)]) := by
    decide +kernel
  obtain ⟨evs, h1, h2⟩ := Option.map_eq_some_iff.mp h
  refine ⟨evs, playC_trace h1, h2, ?_, ?_, ?_⟩
  · have h3 : (playC {} (whole 0 0 before ++ race)).map (fun evs => (evs.drop 70).take 2) =
        some [.inv 1 (.setHead 7 0), .inv 2 (.setHead 7 1)] ∧
        (playC {} (whole 0 0 before ++ race)).map (fun evs => answers (evs.take 70)) =
        some (beforeAnswers.map (fun r => (0, r))) := by decide +kernel
    rw [h1] at h3
    obtain ⟨h3, h4⟩ := h3
    refine ⟨evs.take 70, (evs.drop 70).drop 2, ?_, Option.some.inj h4⟩
    have h3 : (evs.drop 70).take 2 = _ := Option.some.inj h3
    rw [← h3, List.append_assoc, List.take_append_drop, List.take_append_drop]
  · intro h
    obtain ⟨s, n, m, h, hg, hh, ha⟩ := before_state h
    cases h with
    | out h => exact h ⟨n, by rw [hh]; rfl⟩
    | step _ h1 h =>
    obtain ⟨o, v, n', g1, g2, rfl⟩ := setHead_true h1
    rw [hh] at g2
    cases g2
    cases h with
    | out h =>
      refine h ⟨m, ?_⟩
      show s.handles[1]? = _
      rw [hh]; rfl
    | step _ h1 h =>
    obtain ⟨r, v', m', k1, k2, k3⟩ := setHead_false h1
    change s.handles[1]? = _ at k2
    rw [hh] at k2
    cases k2
    have k1 : some (some n, v + 1) = some (some r, v') := k1
    cases k1
    exact k3 ha
  · intro h
    obtain ⟨s, n, m, h, hg, hh, ha⟩ := before_state h
    cases h with
    | out h => exact h ⟨m, by rw [hh]; rfl⟩
    | step _ h1 h =>
    obtain ⟨r, v', m', k1, k2, k3⟩ := setHead_false h1
    rw [hg] at k1
    cases k1

/-- Outside of the contract: a builder is committed while a difference is applied to it, which
panics. -/
theorem C64_apply_diff_fails : ∃ evs : List (Conc.Event Nat Nat Nat), Trace {} evs ∧
    answers evs = beforeAnswers.map (fun r => (0, r)) ++
      [(0, .builder 2), (2, .layer 2), (1, .panicked)] := by
  have h : ((playC {} (whole 0 0 (before ++ [.createBase]) ++
      [.inv 1 (.applyDiff 2 1), .act 1 100, .inv 2 (.commit 2)] ++ acts 2 4 101 ++
      [.act 1 105, .act 1 106, .ret 2, .ret 1])).map answers) =
      some (beforeAnswers.map (fun r => (0, r)) ++
        [(0, .builder 2), (2, .layer 2), (1, .panicked)]) := by decide +kernel
  obtain ⟨evs, h1, h2⟩ := Option.map_eq_some_iff.mp h
  exact ⟨evs, playC_trace h1, h2⟩

end Verif.Conc
