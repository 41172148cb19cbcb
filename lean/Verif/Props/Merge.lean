import Verif.Lemmas.WorldMerge
import Verif.Props.StoreWitness
import Verif.Props.Store

/-!
C28: merging base layers. C51: the streaming readers.
-/

set_option linter.unusedSectionVars false
set_option linter.unusedVariables false

namespace Verif

open SimpleBuilder Spec Witness

variable {K V : Type} [LinearOrder K] [LinearOrder V]

/-! ### C28 -/

/-- C28, on layers: whatever the number, order and overlap of base layers that builders
made, merging them gives a layer that has exactly the triples that one of them has, and whose
dictionaries hold exactly the entries of theirs, in order and each once. The result can be
merged again. Id calls can only name id 0 here: there is no parent to have ids. -/
theorem C28_merge_is_union {ds : List (LayerData K V)}
    (h : ∀ d ∈ ds, ∃ ops, (∀ op ∈ ops, IdsKnown [] op) ∧ Commits [] ops d) :
    ∃ m, BaseMerge.mergeBases ds = some m ∧ Reachable [m] ∧ BaseMerge.Clean m ∧
      (∀ t, ∃ b, Stack.valueTripleExists [m] t = some b ∧
        (b = true ↔ ∃ d ∈ ds, Stack.valueTripleExists [d] t = some true)) ∧
      SortedLt m.nodes ∧ SortedLt m.preds ∧ SortedLt m.values ∧
      (∀ k, k ∈ m.nodes ↔ ∃ d ∈ ds, k ∈ d.nodes) ∧
      (∀ k, k ∈ m.preds ↔ ∃ d ∈ ds, k ∈ d.preds) ∧
      (∀ k, k ∈ m.values ↔ ∃ d ∈ ds, k ∈ d.values) := by
  have hm : ∀ d ∈ ds, ∃ P, BaseMerge.Mergeable d P := by
    intro d hd
    obtain ⟨ops, h1, h2⟩ := h d hd
    exact h2.mergeable h1
  obtain ⟨m, P, k1, k2, k3, k4, k5, k6⟩ := BaseMerge.mergeBases_spec hm
  have hs := k2.ok.sorted m (by simp)
  refine ⟨m, k1, ?_, k2.clean, ?_, hs.1, hs.2.1, hs.2.2, k4, k5, k6⟩
  · refine Alike.merge ?_ ?_ k1
    · intro d hd
      obtain ⟨ops, h1, h2⟩ := h d hd
      exact Alike.commit .none h1 h2
    · intro d hd
      obtain ⟨P, hP⟩ := hm d hd
      exact ⟨hP.clean, hP.subjects⟩
  · intro t
    obtain ⟨b, b1, b2⟩ := valueTripleExists_spec k2.ok t
    refine ⟨b, b1, b2.trans ((k3 t.toG).trans ?_)⟩
    refine exists_congr fun d => and_congr_right fun hd => ?_
    obtain ⟨P, hP⟩ := hm d hd
    obtain ⟨b', c1, c2⟩ := valueTripleExists_spec hP.ok t
    rw [c1, ← c2]
    simp

/-- The calls of a second base layer. -/
def Witness.otherOps : List (Op Nat Nat) :=
  [.addValue ⟨2, 11, .node 1⟩, .addValue ⟨1, 10, .value 7⟩, .addValue ⟨5, 9, .value 3⟩]

/-- The layer these calls write. -/
def Witness.other : LayerData Nat Nat where
  nodes := [1, 2, 5]
  preds := [9, 10, 11]
  values := [3, 7]
  pos := { subjects := none, objects := none,
           sp := ⟨[2, 3, 1], [true, true, true]⟩,
           spo := ⟨[5, 1, 4], [true, true, true]⟩,
           ops := ⟨[2, 0, 0, 3, 1], [true, true, true, true, true]⟩,
           wavelet := [2, 3, 1] }

theorem Witness.other_commits : Commits [] Witness.otherOps Witness.other :=
  commits_of_eval (by decide)

/-- Three layers, one twice. -/
example : ∀ d ∈ [base, other, base], ∃ ops, (∀ op ∈ ops, IdsKnown [] op) ∧ Commits [] ops d := by
  intro d hd
  simp only [List.mem_cons, List.not_mem_nil, or_false] at hd
  rcases hd with rfl | rfl | rfl
  · exact ⟨baseOps, by simp [baseOps, IdsKnown], base_commits⟩
  · exact ⟨otherOps, by simp [otherOps, IdsKnown], other_commits⟩
  · exact ⟨baseOps, by simp [baseOps, IdsKnown], base_commits⟩

example : (BaseMerge.mergeBases [base, other, base]).map (fun m => (m.nodes, m.preds, m.values,
      Stack.valueTripleExists [m] ⟨1, 10, .value 7⟩)) =
    some ([1, 2, 3, 5], [9, 10, 11], [3, 7], some true) := by decide

namespace World

open Store

/-- C28, in the store: at any moment of any execution, merging layers that builders made
without parent, or that are merges of such layers, succeeds and writes a layer without parent
that loads and has exactly the triples that one of them has. Missing: layers that a squash
or rollup wrote, which are merged rightly only if they have no id maps and no value as a
subject. -/
theorem C28_merge_in_store_partial {w : World K V} (h : Run true w) {ns : List Name} {new : Name}
    (hns : ∀ n ∈ ns, (∃ calls, Event.commit n none calls ∈ w.log) ∨ ∃ ms, Event.merge n ms ∈ w.log)
    (hn : w.store.get? new = none) :
    ∃ e, w.store.mergeBase ns = .ok (.write e) ∧ e.parent = none ∧
      Run true { w with plans := (.merge ns, .write e) :: w.plans
                        store := (new, e) :: w.store
                        past := ⟨w.store, w.cache⟩ :: w.seen
                        log := .merge new ns :: w.log } ∧
      ∀ c : Cache K V, (∀ n x, c n = some x → w.cache n = some x) →
        ∃ l cs, Store.getLayer ((new, e) :: w.store) c new = .ok (some l, cs) ∧
          ∀ t, ∃ b, Stack.valueTripleExists l.stack t = some b ∧
            (b = true ↔ ∃ n ∈ ns, w.log.triples n t) := by
  have hclean := fun n hn => h.tidy.stored n (hns n hn)
  obtain ⟨e, h1, h2, _⟩ := mergeBase_total h.inv.ok h.forms.store hclean
  have hrun := Run.step (.step h (.planMerge (fun _ n hn x hx => by
    obtain ⟨e', g1, _, g2⟩ := hclean n hn
    rw [hx] at g1
    cases g1
    exact g2) h1)) (.writeMerge (List.mem_cons_self ..) hn)
  refine ⟨e, h1, h2, hrun, ?_⟩
  intro c hc
  obtain ⟨l, cs, w', s1, s2, s3, s4, s5⟩ := hrun.reload (c := c) hc (n := new)
    (by simp [Store.has, get?])
  refine ⟨l, cs, s1, ?_⟩
  intro t
  have hheld : (new, l) ∈ w'.held := by rw [s5]; exact List.mem_cons_self ..
  obtain ⟨b, b1, b2⟩ := s2.inv.exists_iff (s2.inv.held _ hheld).2 t
  refine ⟨b, b1, b2.trans ?_⟩
  rw [s4]
  simp only [History.triples, Event.new, if_true]

/-- A layer with a parent, or that is not there, cannot be merged: an error, not a panic. -/
theorem C28_merge_error (st : Store K V) {ns : List Name} {n : Name} (hn : n ∈ ns)
    (h : ∀ e, st.get? n = some e → e.parent ≠ none) : st.mergeBase ns = .err := by
  have : st.baseFiles ns = .err := by
    induction ns with
    | nil => cases hn
    | cons m ms ih =>
      unfold baseFiles
      cases hm : st.get? m with
      | none => rfl
      | some e =>
        cases hp : e.parent with
        | some p => simp only [hp]
        | none =>
          rcases List.mem_cons.1 hn with rfl | hn
          · exact absurd hp (h e hm)
          · simp only [hp, ih hn]
            rfl
  simp only [mergeBase, this]
  rfl

example : ∃ w : World Nat Nat, Run true w ∧
    tells w 300 ⟨5, 9, .value 3⟩ [(300, none, [300], some true)] ∧
    tells w 300 ⟨1, 10, .node 2⟩ [(300, none, [300], some true)] ∧
    tells w 301 ⟨1, 10, .node 2⟩ [(301, none, [301], some true)] ∧
    (w.store.mergeBase [101] matches .err) :=
  reaches_run (cs := commits ++ [.base 200 otherOps, .merge [200, 100] 300, .load 300,
    .merge [300, 200, 300] 301, .load 301]) (by decide)

/-- C28 fails for a base layer that a rollup wrote: its id maps are not looked at. The merged
layer (60) lacks a triple that its only input (50) has, and has one that the input lacks. -/
theorem C28_rollup_layer_garbled : ∃ w : World Nat Nat, Run false w ∧
    (w.store.parent? 50 = none ∧ w.store.rollup? 1 = some 50) ∧
    tells w 50 ⟨4, 10, .node 5⟩ [(50, none, [50], some true)] ∧
    tells w 60 ⟨4, 10, .node 5⟩ [(60, none, [60], some false)] ∧
    tells w 50 ⟨5, 10, .node 1⟩ [(50, none, [50], some false)] ∧
    tells w 60 ⟨5, 10, .node 1⟩ [(60, none, [60], some true)] :=
  reaches_run (cs := [.base 0 [.addValue ⟨4, 10, .node 5⟩], .load 0,
    .child 0 1 [.addValue ⟨1, 10, .node 4⟩], .load 1, .rollup 1 50, .load 50,
    .merge [50] 60, .load 60]) (by decide)

/-- C28 fails for a base layer with a value as the subject of a triple, here made by a
commit with an id triple and a squash: a panic. -/
theorem C28_value_subject_panics : ∃ w : World Nat Nat, Run true w ∧
    (w.store.parent? 60 = none ∧ (w.store.mergeBase [60] matches .panic)) :=
  reaches_run (cs := [.base 0 [.addValue ⟨4, 10, .value 5⟩], .load 0,
    .child 0 1 [.addId ⟨2, 1, 1⟩], .load 1, .squash 1 60]) (by decide)

end World

/-! ### C51 -/

/-- C51, on files: whatever the triples that are written, the streaming reader of base layers
and the iterator over a loaded base layer yield exactly these, in order. -/
theorem C51_base_stream {ts : List Triple} (hn : ∀ t ∈ ts, t.Nonzero) (hs : SortedLt ts) :
    ∃ x, buildIndex false ts = some x ∧ baseTripleStream x.sp x.spo = some ts ∧
      x.triples = some ts := by
  obtain ⟨x, h1, h2, h3⟩ := buildIndex_stored false hn hs
  exact ⟨x, h1, h2.baseStream (by simpa using h3), h2.triples⟩

/-- C51, on files, for the additions or the removals of a child layer. -/
theorem C51_child_stream {ts : List Triple} (hn : ∀ t ∈ ts, t.Nonzero) (hs : SortedLt ts) :
    ∃ x l, buildIndex true ts = some x ∧ x.subjects = some l ∧
      childTripleStream l x.sp x.spo = some ts ∧ x.triples = some ts := by
  obtain ⟨x, h1, h2, h3⟩ := buildIndex_stored true hn hs
  obtain ⟨l, hl⟩ := Option.isSome_iff_exists.1 h3
  exact ⟨x, l, h1, hl, h2.childStream hl, h2.triples⟩

/-- Gaps in the subjects, predicates and objects. -/
example : (∀ t ∈ [(⟨2, 1, 9⟩ : Triple), ⟨2, 4, 1⟩, ⟨2, 4, 7⟩, ⟨6, 1, 1⟩], t.Nonzero) ∧
    SortedLt [(⟨2, 1, 9⟩ : Triple), ⟨2, 4, 1⟩, ⟨2, 4, 7⟩, ⟨6, 1, 1⟩] := by
  constructor
  · decide
  · unfold SortedLt; decide

namespace World

open Store

/-- C51, in the store: for every layer in any execution, the streaming reader for its kind
yields the same triples as the iterator, for the additions and, if it has a parent, for the
removals. Missing: executions with a rollup or merge that is not safe. -/
theorem C51_streams_in_store_partial {w : World K V} (h : Run true w) {n : Name} {e : Entry K V}
    (he : w.store.get? n = some e) :
    (e.parent = none → e.data.neg = none ∧ ∃ ts, e.data.pos.triples = some ts ∧
      baseTripleStream e.data.pos.sp e.data.pos.spo = some ts) ∧
    (∀ p, e.parent = some p → ∃ x la lr as rs, e.data.neg = some x ∧
      e.data.pos.subjects = some la ∧ e.data.pos.triples = some as ∧
      childTripleStream la e.data.pos.sp e.data.pos.spo = some as ∧
      x.subjects = some lr ∧ x.triples = some rs ∧ childTripleStream lr x.sp x.spo = some rs) := by
  obtain ⟨S, h1, h2, _⟩ := h.inv.ok.raw he
  have h3 := h.inv.ok.own he h1
  obtain ⟨Ps, Ns, hok⟩ := h2.good
  have hform := h.forms.store n e he
  have hrep := hok.rep
  cases hrep with
  | nil => cases h3
  | @cons d S P N Ps Ns g1 g2 _ =>
    simp only [List.head?_cons, Option.some.injEq] at h3
    subst h3
    unfold Entry.Form at hform
    constructor
    · intro hp
      rw [hp] at hform
      exact ⟨hform.2, P, g1.triples, g1.baseStream hform.1⟩
    · intro p hp
      rw [hp] at hform
      obtain ⟨f1, x, f2, f3⟩ := hform
      obtain ⟨la, hla⟩ := Option.isSome_iff_exists.1 f1
      obtain ⟨lr, hlr⟩ := Option.isSome_iff_exists.1 f3
      rw [f2] at g2
      have g2 : Stored x N := g2
      exact ⟨x, la, lr, P, N, f2, hla, g1.triples, g1.childStream hla, hlr, g2.triples,
        g2.childStream hlr⟩

example : ∃ w : World Nat Nat, Run true w ∧
    ((w.store.get? 100).bind (fun e => baseTripleStream e.data.pos.sp e.data.pos.spo) =
      some [⟨1, 1, 2⟩, ⟨1, 1, 4⟩, ⟨3, 2, 4⟩] ∧
    (w.store.get? 101).bind (fun e => childTripleStream [1, 2] e.data.pos.sp e.data.pos.spo) =
      some [⟨1, 2, 6⟩, ⟨2, 3, 5⟩]) :=
  reaches_run (cs := commits) (by decide)

end World

end Verif
