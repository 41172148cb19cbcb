import Verif.Lemmas.CommitRuns
import Verif.Props.Shared

/-!
C70: a commit makes one layer, with the changes that were made with its builder before, whatever
other calls are made at the same time.
-/

namespace Verif.Conc

open Spec Api

section Main

variable {K V L : Type} [DecidableEq L] {before : List (List (Conc.Event K V L))} {s : State K V L}
  {evs : List (Conc.Event K V L)} {B : CState K V L} {k b : Nat} {t : VTriple K V} {r : Ans K V L}

/-- The answer to a question about the layer of a builder. -/
theorem made_has (h : LivesKept {} before s) (h' : Kept { now := s } evs B) (hm : MadeBy evs k b)
    (hr : (.query k (.has t), r) ∈ pairs (fun _ => none) evs) :
    ∃ x v, B.now.builders[b]? = some x ∧ r = .answer (.flag v) ∧
      ∀ R y, Gets R B b y →
        ∃ cs, R cs ∧ (v = true ↔ after (B.now.log.below x.parent) cs t) := by
  have ho := h.opened ⟨.start, rfl⟩
  obtain ⟨x, h1, h2, h3⟩ := madeBy ho h' hm
  obtain ⟨n, v, h4, rfl, h5⟩ :=
    has_right (pairs_kept h' ho.wf.alone (fun _ => trivial) _ _ hr trivial)
  rw [h2] at h4
  cases h4
  refine ⟨x, v, h1, rfl, fun R y hy => ?_⟩
  obtain ⟨_, _, cs, h6, h7⟩ := h3 R y hy
  exact ⟨cs, h6, h5.trans (h7 t)⟩

omit [DecidableEq L] in
theorem Never.starts_remove (h : Never (MayRemove b t) evs) : Starts (· ≠ .remove t) b evs := by
  rintro u q hq c hc rfl
  exact h u q hq hc

omit [DecidableEq L] in
theorem Never.starts_add (h : Never (MayAdd b t) evs) : Starts (· ≠ .add t) b evs := by
  rintro u q hq c hc rfl
  exact h u q hq hc

theorem means_add {i : Ids K V} {c : Call (VTriple K V)} (h : Edit.Means i (.addValue t) c) :
    c = .add t := by
  cases c with
  | add t' => rw [show t' = t from h]
  | remove t' => exact h.elim

theorem means_remove {i : Ids K V} {c : Call (VTriple K V)} (h : Edit.Means i (.removeValue t) c) :
    c = .remove t := by
  cases c with
  | add t' => exact h.elim
  | remove t' => rw [show t' = t from h]

/-- C70: a triple whose addition to a builder succeeded is in the layer that is made with it, if
nobody may remove it. -/
theorem C70_added (h : LivesKept {} before s) (h' : Kept { now := s } evs B) (hm : MadeBy evs k b)
    (h1 : (.edit b (.addValue t), .done) ∈ pairs (fun _ => none) evs)
    (h2 : Never (MayRemove b t) evs)
    (hr : (.query k (.has t), r) ∈ pairs (fun _ => none) evs) : r = .answer (.flag true) := by
  obtain ⟨x, v, _, rfl, g⟩ := made_has h h' hm hr
  obtain ⟨y, hy⟩ := edited (h.opened ⟨.start, rfl⟩) h' (fun _ _ => means_add) h2.starts_remove h1
  obtain ⟨cs, ⟨c1, c2⟩, g2⟩ := g _ y hy
  rw [g2.2 (.inr (.inl ⟨c1, fun h => c2 _ h (by simp) rfl⟩))]

/-- A triple whose removal succeeded is not in the layer, if nobody may add it. -/
theorem C70_removed (h : LivesKept {} before s) (h' : Kept { now := s } evs B) (hm : MadeBy evs k b)
    (h1 : (.edit b (.removeValue t), .done) ∈ pairs (fun _ => none) evs)
    (h2 : Never (MayAdd b t) evs)
    (hr : (.query k (.has t), r) ∈ pairs (fun _ => none) evs) : r = .answer (.flag false) := by
  obtain ⟨x, v, _, rfl, g⟩ := made_has h h' hm hr
  obtain ⟨y, hy⟩ := edited (h.opened ⟨.start, rfl⟩) h' (fun _ _ => means_remove) h2.starts_add h1
  obtain ⟨cs, ⟨c1, c2⟩, g2⟩ := g _ y hy
  have : v = false := by
    refine Bool.eq_false_iff.2 fun hv => ?_
    rcases g2.1 hv with ⟨h, _⟩ | ⟨h, _⟩ | ⟨_, h, _⟩
    · exact c2 _ h (by simp) rfl
    · exact c2 _ h (by simp) rfl
    · exact h c1
  rw [this]

/-- A triple whose addition and removal both succeeded, in whatever order, is as before. -/
theorem C70_both {v : Bool} (h : LivesKept {} before s) (h' : Kept { now := s } evs B)
    (hm : MadeBy evs k b)
    (h1 : (.edit b (.addValue t), .done) ∈ pairs (fun _ => none) evs)
    (h2 : (.edit b (.removeValue t), .done) ∈ pairs (fun _ => none) evs)
    (hb : Before evs b t v)
    (hr : (.query k (.has t), r) ∈ pairs (fun _ => none) evs) : r = .answer (.flag v) := by
  obtain ⟨x, v', hx, rfl, g⟩ := made_has h h' hm hr
  have ho := h.opened ⟨.start, rfl⟩
  have hb := before_right ho h' hb hx
  have any : Starts (fun _ => True) b evs := fun _ _ _ _ _ => trivial
  obtain ⟨y, hy⟩ := edited ho h' (fun _ _ => means_add) any h1
  obtain ⟨cs, ⟨c1, _⟩, g1⟩ := g _ y hy
  obtain ⟨z, hz⟩ := edited ho h' (fun _ _ => means_remove) any h2
  obtain ⟨cs', ⟨c2, _⟩, g2⟩ := g _ z hz
  have : v' = v := by
    refine Bool.eq_iff_iff.2 ⟨fun hv => hb.2 ?_, fun hv => g1.2 ?_⟩
    · rcases g2.1 hv with ⟨_, _, h⟩ | ⟨_, h⟩ | ⟨_, h, _⟩
      · exact h
      · exact (h c2).elim
      · exact (h c2).elim
    · by_cases hc : removed cs t
      · exact .inl ⟨c1, hc, hb.1 hv⟩
      · exact .inr (.inl ⟨c1, hc⟩)
  rw [this]

/-- A triple that nobody may add or remove is as before. -/
theorem C70_untouched {v : Bool} (h : LivesKept {} before s) (h' : Kept { now := s } evs B)
    (hm : MadeBy evs k b) (h1 : Never (MayAdd b t) evs) (h2 : Never (MayRemove b t) evs)
    (hb : Before evs b t v)
    (hr : (.query k (.has t), r) ∈ pairs (fun _ => none) evs) : r = .answer (.flag v) := by
  obtain ⟨x, v', hx, rfl, g⟩ := made_has h h' hm hr
  have ho := h.opened ⟨.start, rfl⟩
  have hb := before_right ho h' hb hx
  obtain ⟨cs, c1, g1⟩ := g _ x (unedited (P := fun c => c ≠ .add t ∧ c ≠ .remove t) ho h'
    (fun u q hq c hc => ⟨h1.starts_add u q hq c hc, h2.starts_remove u q hq c hc⟩) hx)
  have : v' = v := by
    refine Bool.eq_iff_iff.2 ⟨fun hv => hb.2 ?_, fun hv => g1.2 ?_⟩
    · rcases g1.1 hv with ⟨h, _⟩ | ⟨h, _⟩ | ⟨_, _, h⟩
      · exact ((c1 _ h).1 rfl).elim
      · exact ((c1 _ h).1 rfl).elim
      · exact h
    · exact .inr (.inr ⟨fun h => (c1 _ h).1 rfl, fun h => (c1 _ h).2 rfl, hb.1 hv⟩)
  rw [this]

omit [DecidableEq L] in
/-- At the start. -/
theorem Opened.spending (_h : Opened s) :
    Spending b ({ now := s } : CState K V L) (fun _ => none) 0 where
  work := fun _ => trivial
  one := fun _ _ h => h.elim
  closed := by rintro (⟨_, h⟩ | h); exact h.elim; cases h
  ended := by intro h; cases h
  le := Nat.zero_le _

/-- Of all the commits of a builder, in whatever tasks and at whatever times, one succeeds at
most. -/
theorem C70_once (h : LivesKept {} before s) (h' : Kept { now := s } evs B) :
    ((pairs (fun _ => none) evs).filter fun x => isCommit b x.1 && made x.2).length ≤ 1 := by
  have ho := h.opened ⟨.start, rfl⟩
  have := (commits_kept h' (b := b) ho.wf.alone ho.spending).1
  rw [Nat.zero_add] at this
  rwa [← List.countP_eq_length_filter]

/-- It returns a layer with the name of the builder. -/
theorem C70_layer (h : LivesKept {} before s) (h' : Kept { now := s } evs B) {a : Ans K V L}
    (h1 : (.commit b, a) ∈ pairs (fun _ => none) evs) (ha : a ≠ .failed) :
    ∃ j, a = .layer j ∧ ∀ n, (.builderName b, .name n) ∈ pairs (fun _ => none) evs →
      ∀ r, (.layerName j, r) ∈ pairs (fun _ => none) evs → r = .name n := by
  have ho := h.opened ⟨.start, rfl⟩
  obtain ⟨j, x, rfl, h2, h3⟩ := (commits_kept h' (b := b) ho.wf.alone ho.spending).2 a h1
    (by cases a <;> first | rfl | exact (ha rfl).elim)
  refine ⟨j, rfl, fun n hn r hr => ?_⟩
  obtain ⟨y, y1, rfl⟩ :=
    builderName_right (pairs_kept h' ho.wf.alone (fun _ => trivial) _ _ hn trivial)
  obtain ⟨m, rfl, m1⟩ :=
    layerName_right (pairs_kept h' ho.wf.alone (fun _ => trivial) _ _ hr trivial)
  rw [h2] at y1
  cases y1
  rw [h3] at m1
  cases m1
  rfl

end Main

section Store

variable {K V L : Type} [LinearOrder K] [LinearOrder V] [DecidableEq L]

/-- What the theorems above say about the layers that are made in a process. -/
structure Makes (evs : List (Conc.Event K V L)) : Prop where
  added : ∀ k b t r, MadeBy evs k b →
    (.edit b (.addValue t), .done) ∈ pairs (fun _ => none) evs → Never (MayRemove b t) evs →
    (.query k (.has t), r) ∈ pairs (fun _ => none) evs → r = .answer (.flag true)
  removed : ∀ k b t r, MadeBy evs k b →
    (.edit b (.removeValue t), .done) ∈ pairs (fun _ => none) evs → Never (MayAdd b t) evs →
    (.query k (.has t), r) ∈ pairs (fun _ => none) evs → r = .answer (.flag false)
  both : ∀ k b t v r, MadeBy evs k b →
    (.edit b (.addValue t), .done) ∈ pairs (fun _ => none) evs →
    (.edit b (.removeValue t), .done) ∈ pairs (fun _ => none) evs → Before evs b t v →
    (.query k (.has t), r) ∈ pairs (fun _ => none) evs → r = .answer (.flag v)
  untouched : ∀ k b t v r, MadeBy evs k b → Never (MayAdd b t) evs → Never (MayRemove b t) evs →
    Before evs b t v → (.query k (.has t), r) ∈ pairs (fun _ => none) evs → r = .answer (.flag v)
  once : ∀ b, ((pairs (fun _ => none) evs).filter fun x => isCommit b x.1 && made x.2).length ≤ 1
  layer : ∀ b a, (.commit b, a) ∈ pairs (fun _ => none) evs → a ≠ .failed →
    ∃ j, a = .layer j ∧ ∀ n, (.builderName b, .name n) ∈ pairs (fun _ => none) evs →
      ∀ r, (.layerName j, r) ∈ pairs (fun _ => none) evs → r = .name n

omit [LinearOrder K] [LinearOrder V] in
theorem makes {before : List (List (Conc.Event K V L))} {s : State K V L}
    {evs : List (Conc.Event K V L)} {B : CState K V L} (h : LivesKept {} before s)
    (h' : Kept { now := s } evs B) : Makes evs where
  added := fun _ _ _ _ h1 h2 h3 h4 => C70_added h h' h1 h2 h3 h4
  removed := fun _ _ _ _ h1 h2 h3 h4 => C70_removed h h' h1 h2 h3 h4
  both := fun _ _ _ _ _ h1 h2 h3 h4 h5 => C70_both h h' h1 h2 h3 h4 h5
  untouched := fun _ _ _ _ _ h1 h2 h3 h4 h5 => C70_untouched h h' h1 h2 h3 h4 h5
  once := fun _ => C70_once h h'
  layer := fun _ _ h1 h2 => C70_layer h h' h1 h2

/-- The store in memory or on disk, with one process. Missing: calls outside of the contract, as
in C64. -/
theorem C70_store_partial {disk : Bool} {evs : List (Conc.Event K V L)}
    (h : Trace { session := { disk := disk } } evs) : Makes evs ∨ Left {} evs :=
  (C64_kept_partial h).imp_left fun ⟨_, h⟩ => makes .nil h

/-- Processes that use a store on disk at the same time. Missing:
calls outside of the contract, as in C68. -/
theorem C70_processes_partial {before : List (List (Conc.Event K V L))}
    {evs : List (Conc.Event K V L)} (h : Shared.Lives { disk := true } (before ++ [evs])) :
    Makes evs ∨ ∃ pre bad post s, before ++ [evs] = pre ++ bad :: post ∧ LivesKept {} pre s ∧
      Left { now := s } bad :=
  (C68_kept_partial h).imp_left fun ⟨_, _, h1, h2⟩ => makes h1 h2

end Store

end Verif.Conc
