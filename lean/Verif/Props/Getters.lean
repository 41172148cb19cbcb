import Verif.Lemmas.ChangeIter
import Verif.Props.Query
import Verif.Props.StoreWitness

/-!
C49, C50 and C54: what the store tells about single layers, with and without the cache, and the
change iterators.
-/

set_option linter.unusedSectionVars false
set_option linter.unusedVariables false

namespace Verif

open SimpleBuilder Spec World Store Witness

variable {K V : Type} [LinearOrder K] [LinearOrder V]

/-! ### C49: change iterators -/

/-- C49 for `layer_changes_upto` through the cache, unless a rollup was rolled up: for every
execution and every interleaving of the walk with it, the iterator gives the net difference of what
the two layers answer, and an error if the second name is not an ancestor. Missing: rollups of
rollups (`C49_cached_wrong`). -/
theorem C49_changes_upto_cached_partial {w : World K V} (h : Run true w)
    (hf : w.log.noRollupOfRollup) {v : Nat → View K V} (hv : w.Watches v) {n upto : Name}
    (hn : (v 0).store.has n = true) {f : Nat} (hlen : w.store.length < f)
    {l lu : InternalLayer K V} (hl : (n, l) ∈ w.held) (hlu : (upto, lu) ∈ w.held) :
    (w.log.Ancestor upto n → ∃ A B cs, Stack.triples l.stack = some A ∧
      Stack.triples lu.stack = some B ∧ layerChangesUpto v f n upto = .ok cs ∧
      NetChanges A B cs) ∧
    (¬ w.log.Ancestor upto n → layerChangesUpto v f n upto = .err) :=
  changesUpto_spec h (hv.shows h hf) (fun t => (h.inv.seen _ (hv.mem t)).1) (hv.mono h.inv) hn hlen
    hl hlu

/-- C49 for `layer_changes_upto` without a cache, in all executions. -/
theorem C49_changes_upto {w : World K V} (h : Run true w) {v : Nat → View K V}
    (hv : w.WatchesFiles v) {n upto : Name} (hn : (v 0).store.has n = true) {f : Nat}
    (hlen : w.store.length < f) {l lu : InternalLayer K V} (hl : (n, l) ∈ w.held)
    (hlu : (upto, lu) ∈ w.held) :
    (w.log.Ancestor upto n → ∃ A B cs, Stack.triples l.stack = some A ∧
      Stack.triples lu.stack = some B ∧ layerChangesUpto v f n upto = .ok cs ∧
      NetChanges A B cs) ∧
    (¬ w.log.Ancestor upto n → layerChangesUpto v f n upto = .err) :=
  changesUpto_spec h (hv.shows h) (hv.ok h.inv) (hv.mono h.inv) hn hlen hl hlu

/-- What the iterators give if nothing else happens, through the cache and without it. -/
def stillChanges (w : World Nat Nat) (n upto : Name) :
    Out (List (TripleChange × Triple)) × Out (List (TripleChange × Triple)) :=
  (layerChangesUpto (fun _ => ⟨w.store, w.cache⟩) 10 n upto,
   layerChangesUpto (fun _ => ⟨w.store, noCache⟩) 10 n upto)

theorem watches_still (w : World K V) : w.Watches (fun _ => ⟨w.store, w.cache⟩) :=
  ⟨fun _ => 0, fun _ => rfl, fun _ => Nat.le_refl _⟩

/-- A removal and additions that are not undone later; the other direction is an error. -/
example : ∃ w : World Nat Nat, Run true w ∧
    stillChanges w 102 100 =
      (.ok [(.removal, ⟨1, 1, 4⟩), (.addition, ⟨1, 2, 6⟩), (.addition, ⟨7, 4, 1⟩)],
       .ok [(.removal, ⟨1, 1, 4⟩), (.addition, ⟨1, 2, 6⟩), (.addition, ⟨7, 4, 1⟩)]) ∧
    stillChanges w 100 102 = (.err, .err) :=
  reaches_run (cs := commits) (by decide)

/-- C49 fails in general through the cache: if a layer was rolled up down to an ancestor and the
rollup was rolled up itself, a cached child of it reports the wrong parent, so that the changes since
its parent are an error. -/
theorem C49_cached_wrong : ∃ w : World Nat Nat, Run true w ∧ w.log.parent 4 = some 3 ∧
    stillChanges w 4 3 = (.err, .ok [(.addition, ⟨4, 5, 4⟩)]) :=
  reaches_run (cs := four ++ [.rollupUpto 3 1 50, .load 50, .rollup 50 51,
    .child 3 4 [.addValue ⟨7, 7, .node 7⟩], .load 4, .cache 2]) (by decide)

/-- C49 for `layer_changes`, restricted to layers without a parent. Missing: all other layers, for
which it is false (`C49_layer_changes_repeats`, `C49_layer_changes_wrong`). -/
theorem C49_layer_changes_partial {w : World K V} (h : Run true w) {v : Nat → View K V}
    (hv : w.WatchesFiles v) {n : Name} (hn : (v 0).store.has n = true) {f : Nat}
    (hlen : w.store.length ≤ f) (hp : w.log.parent n = none) {l : InternalLayer K V}
    (hl : (n, l) ∈ w.held) :
    ∃ A cs, Stack.triples l.stack = some A ∧ layerChanges v f n = .ok cs ∧ NetChanges A [] cs := by
  obtain ⟨S, d, R, cs, P, N, s1, rfl, s2, s3, s4, s5, s6, s7, s8⟩ :=
    layerChanges_spec h (hv.shows h) (hv.ok h.inv) (hv.mono h.inv) hn hlen
  obtain ⟨S', g1, g2, _⟩ := (h.inv.held _ hl).2
  cases s1.unique g1
  have hR : R = [] := by
    obtain ⟨e, he⟩ := s1.get
    have hpar : e.parent = none := by
      have := h.shape.parent n
      rw [hp] at this
      unfold Store.parent? at this
      rw [he] at this
      exact this
    rcases h.inv.ok.cases he s1 with ⟨_, e2⟩ | ⟨p, R', e2, _⟩
    · exact (List.cons.inj e2).2
    · rw [hpar] at e2; cases e2
  subst hR
  obtain ⟨P', N', a1, a2, a3, a4, a5⟩ := C09_changes_exact_partial s2
  have e1 : P' = P := by have := a1.all; rw [s4] at this; simpa using this.symm
  have e2 : N' = N := by have := a2.all; rw [s5] at this; simpa using this.symm
  subst e1 e2
  have hN : N' = [] := by
    apply List.eq_nil_iff_forall_not_mem.2
    intro t ht
    have := ((a4 t).1 ht).1
    simp [Stack.tripleExists, Stack.tripleExistsLoop] at this
  subst hN
  obtain ⟨Ps, Ns, hg⟩ := s2.good
  obtain ⟨A, b1, b2, b3⟩ := hg.rep.triples hg.wf
  have hA : ∀ t, t ∈ A ↔ t ∈ P' := by
    intro t
    rw [b3, a3, hg.exists_iff]
    simp [Stack.tripleExists, Stack.tripleExistsLoop]
  refine ⟨A, cs, g2.answers.triples.symm.trans b1, s3, pairwise_strict s6 ?_, ?_, ?_⟩
  · intro u
    rw [s7, s8]
    have := List.nodup_iff_count_le_one.1 a1.sorted.nodup u
    simp only [List.length_cons, List.length_nil, List.count_nil]
    omega
  · intro t
    rw [← List.count_pos_iff, s7, hA, ← List.count_pos_iff]
    simp
  · intro t
    rw [← List.count_pos_iff, s8]
    simp

/-- What `layer_changes` gives for every layer: the changes of the layer itself with respect to its
parent, each as often as the layer has ancestors and itself, and nothing of the ancestors. -/
theorem C49_layer_changes_repeats {w : World K V} (h : Run true w) {v : Nat → View K V}
    (hv : w.WatchesFiles v) {n : Name} (hn : (v 0).store.has n = true) {f : Nat}
    (hlen : w.store.length ≤ f) :
    ∃ ns cs P N, w.log.Line n ns ∧ layerChanges v f n = .ok cs ∧
      (v 0).additions n = .ok P ∧ (v 0).removals n = .ok N ∧
      ∀ t, cs.count (.addition, t) = (if t ∈ P then ns.length else 0) ∧
        cs.count (.removal, t) = (if t ∈ N then ns.length else 0) := by
  obtain ⟨S, d, R, cs, P, N, s1, rfl, s2, s3, s4, s5, s6, s7, s8⟩ :=
    layerChanges_spec h (hv.shows h) (hv.ok h.inv) (hv.mono h.inv) hn hlen
  obtain ⟨e, he⟩ := has_iff.1 hn
  obtain ⟨e', he', _, hd⟩ := (hv.shows h 0).ext n e he
  have hde : e.data = d := by
    have : e'.data = d := by
      rcases h.inv.ok.cases he' s1 with ⟨_, e2⟩ | ⟨p, R', _, _, e2⟩ <;>
        exact (List.cons.inj e2).1.symm
    rw [← hd, this]
  obtain ⟨P', N', a1, a2, _, _, a5⟩ := C09_changes_exact_partial s2
  have e1 : P' = P := by have := a1.all; rw [s4] at this; simpa using this.symm
  have e2 : N' = N := by have := a2.all; rw [s5] at this; simpa using this.symm
  subst e1 e2
  obtain ⟨ns, hns, hlen'⟩ : ∃ ns, w.log.Line n ns ∧ ns.length = (d :: R).length := by
    clear s2 s3 s7 s8 a1 a2 a5 s4 s5 hd hde he he' hn
    generalize hS : d :: R = S at s1
    clear hS
    induction s1 with
    | base g1 g2 =>
      refine ⟨_, .root ?_, rfl⟩
      rw [← h.shape.parent]; unfold Store.parent?; rw [g1]; exact g2
    | child g1 g2 g3 ih =>
      obtain ⟨ns, i1, i2⟩ := ih
      refine ⟨_, .step ?_ i1, by simp [i2]⟩
      rw [← h.shape.parent]; unfold Store.parent?; rw [g1]; exact g2
  refine ⟨ns, cs, P', N', hns, s3, ?_, ?_, ?_⟩
  · unfold View.additions
    rw [View.changes_eq (hv.shows h 0).cache he (fun _ _ => rfl), hde, s4]
    rfl
  · unfold View.removals
    rw [View.changes_eq (hv.shows h 0).cache he (fun _ _ => rfl), hde, s5]
    rfl
  · intro t
    have c1 := List.nodup_iff_count_le_one.1 a1.sorted.nodup t
    have c2 := List.nodup_iff_count_le_one.1 a2.sorted.nodup t
    have key : ∀ (k a b : Nat), a ≤ 1 → b ≤ 1 → ¬ (0 < a ∧ 0 < b) →
        k * a - k * b = if 0 < a then k else 0 := by
      intro k a b h1 h2 h3
      rcases Nat.le_one_iff_eq_zero_or_eq_one.1 h1 with rfl | rfl <;>
        rcases Nat.le_one_iff_eq_zero_or_eq_one.1 h2 with rfl | rfl <;> simp_all
    have hdis : ¬ (0 < P'.count t ∧ 0 < N'.count t) := by
      rw [List.count_pos_iff, List.count_pos_iff]
      exact fun hh => a5 t hh.1 hh.2
    rw [s7, s8, hlen', key _ _ _ c1 c2 hdis, key _ _ _ c2 c1 (fun hh => hdis ⟨hh.2, hh.1⟩)]
    simp only [List.count_pos_iff, and_self]

/-- C49 fails for `layer_changes`: the changes of the topmost layer are given three times, those of
the other layers are missing, and there are removals although nothing was there before. -/
theorem C49_layer_changes_wrong : ∃ w : World Nat Nat, Run true w ∧
    layerChanges (fun _ => ⟨w.store, noCache⟩) 10 102 = .ok [(.removal, ⟨2, 3, 5⟩),
      (.removal, ⟨2, 3, 5⟩), (.removal, ⟨2, 3, 5⟩), (.addition, ⟨7, 4, 1⟩),
      (.addition, ⟨7, 4, 1⟩), (.addition, ⟨7, 4, 1⟩)] ∧
    (lookup 102 w.held).map (fun l => Stack.triples l.stack) =
      some (some [⟨1, 1, 2⟩, ⟨1, 2, 6⟩, ⟨3, 2, 4⟩, ⟨7, 4, 1⟩]) :=
  reaches_run (cs := commits) (by decide)

/-- The case of a layer without parent. -/
example : ∃ w : World Nat Nat, Run true w ∧ w.log.parent 100 = none ∧
    layerChanges (fun _ => ⟨w.store, noCache⟩) 10 100 =
      .ok [(.addition, ⟨1, 1, 2⟩), (.addition, ⟨1, 1, 4⟩), (.addition, ⟨3, 2, 4⟩)] :=
  reaches_run (cs := commits) (by decide)

/-! ### C50 and C54: the getters -/

/-- `B` is what a layer that was returned for the parent of `n` consists of, or nothing if `n` has
no parent. -/
def ParentStack (w : World K V) (n : Name) (B : List (LayerData K V)) : Prop :=
  (w.log.parent n = none ∧ B = []) ∨
    ∃ p lp, w.log.parent n = some p ∧ (p, lp) ∈ w.held ∧ B = lp.stack

theorem SameAnswers.refl (A : List (LayerData K V)) : SameAnswers A A := by
  constructor <;> intros <;> rfl

theorem stored_own {w : World K V} (h : Run true w) {n : Name} {l : InternalLayer K V}
    (hl : (n, l) ∈ w.held) {B : List (LayerData K V)} (hB : ParentStack w n B) :
    ∃ e S, w.store.get? n = some e ∧ Reachable (e.data :: S) ∧
      SameAnswers (e.data :: S) l.stack ∧ SameAnswers S B := by
  obtain ⟨T, s1, s2, _⟩ := (h.inv.held _ hl).2
  obtain ⟨e, he⟩ := s1.get
  have hpar : w.log.parent n = e.parent := by
    rw [← h.shape.parent n]
    unfold Store.parent?
    rw [he]
    rfl
  have hr := s1.reachable h.inv.ok
  rcases h.inv.ok.cases he s1 with ⟨e1, rfl⟩ | ⟨p, R, e1, e2, rfl⟩
  · rcases hB with ⟨_, rfl⟩ | ⟨p, lp, b1, _⟩
    · exact ⟨e, [], he, hr, s2.answers, SameAnswers.refl _⟩
    · rw [hpar, e1] at b1; cases b1
  · rcases hB with ⟨b1, rfl⟩ | ⟨p', lp, b1, b2, rfl⟩
    · rw [hpar, e1] at b1; cases b1
    · rw [hpar, e1] at b1
      cases b1
      obtain ⟨S', k1, k2, _⟩ := (h.inv.held _ b2).2
      cases e2.unique k1
      exact ⟨e, R, he, hr, s2.answers, k2.answers⟩

theorem view_own {w : World K V} (h : Run true w) {v : View K V} (hv : v ∈ w.seen) {n : Name}
    (hn : v.store.has n = true) {e : Entry K V} (he : w.store.get? n = some e) :
    ∃ e', v.store.get? n = some e' ∧ e'.data = e.data := by
  obtain ⟨e', he'⟩ := has_iff.1 hn
  obtain ⟨e2, g1, _, g3⟩ := (h.inv.seen _ hv).2.2.1 n e' he'
  rw [he] at g1
  cases g1
  exact ⟨e', he', g3.symm⟩

/-- The answers that name the new terms of a layer: which are in the layer and not in its parent,
and which ids they have. `l` is the layer and `B` its parent. -/
structure NewTerms (l B : List (LayerData K V)) (nodes preds : List K) (values : List V)
    (nvMap pMap : IdMap) : Prop where
  nodesSorted : SortedLt nodes
  predsSorted : SortedLt preds
  valuesSorted : SortedLt values
  isNode : ∀ k, k ∈ nodes ↔ Stack.nodeId l k ≠ some none ∧ Stack.nodeId B k = some none
  isPred : ∀ k, k ∈ preds ↔ Stack.predId l k ≠ some none ∧ Stack.predId B k = some none
  isValue : ∀ x, x ∈ values ↔ Stack.objectId l (.value x) ≠ some none ∧
    Stack.objectId B (.value x) = some none
  nodeValueCount : Stack.nvCount l = Stack.nvCount B + nodes.length + values.length
  predCount : Stack.pCount l = Stack.pCount B + preds.length
  /-- The id map and the dictionaries give the terms of the new ids. -/
  objectOf : ∀ i, 1 ≤ i → i ≤ nodes.length + values.length → ∃ j, outerToInner nvMap i = some j ∧
    1 ≤ j ∧ Stack.idObject l (Stack.nvCount B + i) =
      some ((nodes.map Obj.node ++ values.map Obj.value)[j - 1]?)
  predOf : ∀ i, 1 ≤ i → i ≤ preds.length → ∃ j, outerToInner pMap i = some j ∧ 1 ≤ j ∧
    Stack.idPredicate l (Stack.pCount B + i) = some (preds[j - 1]?)

theorem newTerms_own {d : LayerData K V} {S l B : List (LayerData K V)} (hS : Reachable (d :: S))
    (hl : SameAnswers (d :: S) l) (hB : SameAnswers S B) :
    NewTerms l B d.nodes d.preds d.values d.nvMap d.pMap := by
  obtain ⟨Ps, Ns, hg⟩ := hS.good
  obtain ⟨P, N, Ps', Ns', _, _, hg'⟩ := hg.tail
  obtain ⟨c1, c2, c3⟩ := hg.counts
  have hsort := hg.sorted d (by simp)
  have nvc : LvOk ((d.objs, d.nvMap) :: nvLevels S) := hg.nv
  have pc : LvOk ((d.preds, d.pMap) :: pLevels S) := hg.pr
  have memO : ∀ o, o ∈ d.objs ↔ Stack.objectId (d :: S) o ≠ some none ∧
      Stack.objectId S o = some none := by
    intro o
    rw [objectId_eq hg.counts, objectId_eq c3]
    have q1 := lvId_total hg.nv o
    have q2 := lvId_total hg'.nv o
    constructor
    · intro ho
      have n1 : lvMem (nvLevels (d :: S)) o := ⟨(d.objs, d.nvMap), by simp [nvLevels], ho⟩
      have n2 : ¬ lvMem (nvLevels S) o := fun ⟨e, he, hoe⟩ => nvc.2.1 o ho e he hoe
      refine ⟨?_, ?_⟩
      · rcases q1 with ⟨i, j, _⟩ | ⟨_, j⟩
        · rw [j]; simp
        · exact absurd n1 j
      · rcases q2 with ⟨i, _, _, _, j⟩ | ⟨j, _⟩
        · exact absurd j n2
        · exact j
    · rintro ⟨h1, h2⟩
      rcases q1 with ⟨i, _, _, _, e, he, hoe⟩ | ⟨j, _⟩
      · rcases List.mem_cons.1 (show e ∈ (d.objs, d.nvMap) :: nvLevels S from he) with rfl | he
        · exact hoe
        · rcases q2 with ⟨i', j', _⟩ | ⟨_, j'⟩
          · rw [j'] at h2; simp at h2
          · exact absurd ⟨e, he, hoe⟩ j'
      · exact absurd j h1
  have memP : ∀ o, o ∈ d.preds ↔ Stack.predId (d :: S) o ≠ some none ∧
      Stack.predId S o = some none := by
    intro o
    rw [predId_eq hg.counts, predId_eq c3]
    have q1 := lvId_total hg.pr o
    have q2 := lvId_total hg'.pr o
    constructor
    · intro ho
      have n1 : lvMem (pLevels (d :: S)) o := ⟨(d.preds, d.pMap), by simp [pLevels], ho⟩
      have n2 : ¬ lvMem (pLevels S) o := fun ⟨e, he, hoe⟩ => pc.2.1 o ho e he hoe
      refine ⟨?_, ?_⟩
      · rcases q1 with ⟨i, j, _⟩ | ⟨_, j⟩
        · rw [j]; simp
        · exact absurd n1 j
      · rcases q2 with ⟨i, _, _, _, j⟩ | ⟨j, _⟩
        · exact absurd j n2
        · exact j
    · rintro ⟨h1, h2⟩
      rcases q1 with ⟨i, _, _, _, e, he, hoe⟩ | ⟨j, _⟩
      · rcases List.mem_cons.1 (show e ∈ (d.preds, d.pMap) :: pLevels S from he) with rfl | he
        · exact hoe
        · rcases q2 with ⟨i', j', _⟩ | ⟨_, j'⟩
          · rw [j'] at h2; simp at h2
          · exact absurd ⟨e, he, hoe⟩ j'
      · exact absurd j h1
  refine ⟨hsort.1, hsort.2.1, hsort.2.2, ?_, ?_, ?_, ?_, ?_, ?_, ?_⟩
  · intro k
    rw [← hl.subjectId, ← hB.subjectId]
    have := memO (.node k)
    simpa [LayerData.objs, Stack.objectId] using this
  · intro k
    rw [← hl.predicateId, ← hB.predicateId]
    exact memP k
  · intro x
    rw [← hl.objectId, ← hB.objectId]
    have := memO (.value x)
    simpa [LayerData.objs] using this
  · rw [← hl.nodeAndValueCount, ← hB.nodeAndValueCount, ← c1]
    rfl
  · rw [← hl.predicateCount, ← hB.predicateCount, ← c2]
    rfl
  · intro i h1 h2
    rw [← hl.idObject, ← hB.nodeAndValueCount, idObject_eq hg.counts (by omega), nvCount_eq c3]
    obtain ⟨j, k1, k2, k3, _⟩ := nvc.2.2.1.outer_inner h1 (by rw [LayerData.objs_length]; exact h2)
    refine ⟨j, k3, k1, ?_⟩
    show lvGet ((d.objs, d.nvMap) :: nvLevels S) _ = _
    unfold lvGet
    rw [if_pos (by omega), Nat.add_sub_cancel_left, k3]
    show some (dictGet d.objs j) = _
    unfold dictGet
    rw [if_neg (by omega)]
    rfl
  · intro i h1 h2
    rw [← hl.idPredicate, ← hB.predicateCount, idPredicate_eq hg.counts (by omega), pCount_eq c3]
    obtain ⟨j, k1, k2, k3, _⟩ := pc.2.2.1.outer_inner h1 h2
    refine ⟨j, k3, k1, ?_⟩
    show lvGet ((d.preds, d.pMap) :: pLevels S) _ = _
    unfold lvGet
    rw [if_pos (by omega), Nat.add_sub_cancel_left, k3]
    show some (dictGet d.preds j) = _
    unfold dictGet
    rw [if_neg (by omega)]

/-- C54 for the dictionaries and the id maps, whatever the cache has: they are the new terms of the
layer and their ids. -/
theorem C54_dictionaries {w : World K V} (h : Run true w) {v : View K V} (hv : v ∈ w.seen)
    {n : Name} (hn : v.store.has n = true) {l : InternalLayer K V} (hl : (n, l) ∈ w.held)
    {B : List (LayerData K V)} (hB : ParentStack w n B) :
    ∃ nodes preds values nvMap pMap, v.nodeDictionary n = some nodes ∧
      v.predicateDictionary n = some preds ∧ v.valueDictionary n = some values ∧
      v.nodeValueIdMap n = some nvMap ∧ v.predicateIdMap n = some pMap ∧
      NewTerms l.stack B nodes preds values nvMap pMap := by
  obtain ⟨e, S, he, hr, h1, h2⟩ := stored_own h hl hB
  obtain ⟨e', he', hd⟩ := view_own h hv hn he
  have hc := (h.inv.seen _ hv).2.1
  have hi : ∀ {α : Type} (f : LayerData K V → α), v.store.stored? n f = some (f e'.data) := by
    intro α f; unfold Store.stored?; rw [he']; rfl
  refine ⟨_, _, _, _, _, View.via_eq (F := fun d => some d.nodes) hc he' (fun _ _ => rfl) (hi _),
    View.via_eq (F := fun d => some d.preds) hc he' (fun _ _ => rfl) (hi _),
    View.via_eq (F := fun d => some d.values) hc he' (fun _ _ => rfl) (hi _),
    View.via_eq (F := fun d => some d.nvMap) hc he' (fun _ _ => rfl) (hi _),
    View.via_eq (F := fun d => some d.pMap) hc he' (fun _ _ => rfl) (hi _), ?_⟩
  rw [hd]
  exact newTerms_own hr h1 h2

/-- C50 for nodes and values, and for predicates without a cache or if the cache has the layer and
not as a rollup. The lists are those of `C54_dictionaries`. Missing: the other cases for
predicates, in which the number of values is returned (`C50_predicate_count_values`,
`C50_predicate_count_wrong`). -/
theorem C50_counts_partial {w : World K V} (h : Run true w) {v : View K V} (hv : v ∈ w.seen)
    {n : Name} (hn : v.store.has n = true) :
    ∃ nodes preds values, v.nodeDictionary n = some nodes ∧
      v.predicateDictionary n = some preds ∧ v.valueDictionary n = some values ∧
      v.nodeCount n = some nodes.length ∧ v.valueCount n = some values.length ∧
      v.store.predicateCount n = some preds.length ∧
      ∀ l, v.cache n = some l → l.isRollup = false → v.predicateCount n = some preds.length := by
  obtain ⟨e, he⟩ := has_iff.1 hn
  have hc := (h.inv.seen _ hv).2.1
  have hi : ∀ {α : Type} (f : LayerData K V → α), v.store.stored? n f = some (f e.data) := by
    intro α f; unfold Store.stored?; rw [he]; rfl
  refine ⟨_, _, _, View.via_eq (F := fun d => some d.nodes) hc he (fun _ _ => rfl) (hi _),
    View.via_eq (F := fun d => some d.preds) hc he (fun _ _ => rfl) (hi _),
    View.via_eq (F := fun d => some d.values) hc he (fun _ _ => rfl) (hi _),
    View.via_eq (F := fun d => some d.nodes.length) hc he (fun _ _ => rfl) (hi _),
    View.via_eq (F := fun d => some d.values.length) hc he (fun _ _ => rfl) (hi _), hi _, ?_⟩
  intro l h1 h2
  unfold View.predicateCount View.via
  rw [h1]
  show (if l.isRollup = true then _ else some l.data.preds.length) = _
  rw [h2]
  obtain ⟨k1, k2⟩ := hc n l h1
  obtain ⟨e', S, g1, g2⟩ := k1.own h2
  rw [k2, he] at g1
  cases g1
  show some l.data.preds.length = _
  rw [g2]
  rfl

/-- Layers that are not in the cache, or as rollups: the number of predicates that is returned is
the number of values. -/
theorem C50_predicate_count_values (v : View K V) (n : Name)
    (hc : ∀ l, v.cache n = some l → l.isRollup = true) :
    v.predicateCount n = v.store.valueCount n := by
  unfold View.predicateCount View.via
  cases h : v.cache n with
  | none => rfl
  | some l =>
    show (if l.isRollup = true then _ else _) = _
    rw [if_pos (hc l h)]

/-- What the store reports as the number of predicates of a layer through the cache, what it
reports without a cache, and the predicates. -/
def predicateReport (w : World Nat Nat) (n : Name) : Option Nat × Option Nat × Option (List Nat) :=
  (View.predicateCount ⟨w.store, w.cache⟩ n, w.store.predicateCount n, w.store.predicateDictionary n)

/-- C50 fails in general: the number of predicates depends on the cache. -/
theorem C50_predicate_count_wrong : ∃ w w' : World Nat Nat, Run true w ∧ Run true w' ∧
    predicateReport w 3 = (some 0, some 1, some [15]) ∧
    predicateReport w' 3 = (some 1, some 1, some [15]) := by
  obtain ⟨w, h1, h2⟩ := reaches_run (safe := true) (cs := four)
    (P := fun w => predicateReport w 3 = (some 0, some 1, some [15])) (by decide)
  obtain ⟨w', h1', h2'⟩ := reaches_run (safe := true) (cs := four ++ [.cache 3])
    (P := fun w => predicateReport w 3 = (some 1, some 1, some [15])) (by decide)
  exact ⟨w, w', h1, h1', h2, h2'⟩

/-- New nodes, values and predicates of a child layer, read through the cache. -/
example : ∃ w : World Nat Nat, Run true w ∧ w.log.parent 101 = some 100 ∧
    (lookup 101 w.held).isSome ∧ (lookup 100 w.held).isSome ∧
    View.nodeDictionary ⟨w.store, w.cache⟩ 101 = some [4] ∧
    View.predicateDictionary ⟨w.store, w.cache⟩ 101 = some [12] ∧
    View.valueDictionary ⟨w.store, w.cache⟩ 101 = some [8] :=
  reaches_run (cs := commits ++ [.cache 1]) (by decide)

/-- The store answers about one side of the changes of a layer from the list `P`. -/
structure SideTold (P : List Triple) (all : Out (List Triple)) (mem : Triple → Out Bool)
    (bys : Nat → Out (List Triple)) (bysp : Nat → Nat → Out (List Triple))
    (byp : Nat → Out (List Triple)) (count : Out Nat) : Prop where
  sorted : SortedLt P
  all : all = .ok P
  mem : ∀ t, mem t = .ok (decide (t ∈ P))
  bys : ∀ s, bys s = .ok (P.filter (fun t => t.s == s))
  bysp : ∀ s p, bysp s p = .ok (P.filter (fun t => t.s == s && t.p == p))
  byp : ∀ p, p ≠ 0 → byp p = .ok (P.filter (fun t => t.p == p))
  count : count = .ok P.length

/-- C54 for the changes, whatever the cache has: the additions are the triples of the layer that
its parent has not, the removals those of the parent that the layer has not, and all ways of asking
agree. Missing: the changes by predicate for the predicate 0 (C09) and the changes by object, which
are in `C54_changes_by_object_partial`. -/
theorem C54_changes_partial {w : World K V} (h : Run true w) {v : View K V} (hv : v ∈ w.seen)
    {n : Name} (hn : v.store.has n = true) {l : InternalLayer K V} (hl : (n, l) ∈ w.held)
    {B : List (LayerData K V)} (hB : ParentStack w n B) :
    ∃ P N, SideTold P (v.additions n) (v.additionExists n) (v.additionsS n) (v.additionsSP n)
        (v.additionsP n) (v.additionCount n) ∧
      SideTold N (v.removals n) (v.removalExists n) (v.removalsS n) (v.removalsSP n)
        (v.removalsP n) (v.removalCount n) ∧
      (∀ t, t ∈ P ↔ Stack.tripleExists l.stack t = some true ∧
        Stack.tripleExists B t = some false) ∧
      ∀ t, t ∈ N ↔ Stack.tripleExists B t = some true ∧
        Stack.tripleExists l.stack t = some false := by
  obtain ⟨e, S, he, hr, h1, h2⟩ := stored_own h hl hB
  obtain ⟨e', he', hd⟩ := view_own h hv hn he
  have hc := (h.inv.seen _ hv).2.1
  obtain ⟨P, N, a1, a2, a3, a4, a5⟩ := C09_changes_exact_partial hr
  obtain ⟨_, c2, _⟩ := C11_counts hr
  obtain ⟨⟨P', p1, p2⟩, N', n1, n2⟩ := c2 e.data (by simp)
  have e1 : P' = P := by have := a1.all; rw [p1] at this; simpa using this
  have e2 : N' = N := by have := a2.all; rw [n1] at this; simpa using this
  subst e1 e2
  have key : ∀ {α : Type} (f : LayerData K V → Option α) (_ : ∀ d S, f (d.onTop S) = f d) {x : α}
      (_ : f e.data = some x), v.changes n f = .ok x := by
    intro α f hf x hx
    rw [View.changes_eq hc he' hf, hd, hx]
    rfl
  refine ⟨P', N', ⟨a1.sorted, key _ (fun _ _ => rfl) a1.all,
    fun t => key _ (fun _ _ => rfl) (a1.mem t), fun s => key _ (fun _ _ => rfl) (a1.bys s),
    fun s p => key _ (fun _ _ => rfl) (a1.bysp s p),
    fun p hp => key _ (fun _ _ => rfl) (a1.byp p hp), key _ (fun _ _ => rfl) p2⟩,
    ⟨a2.sorted, key _ (fun _ _ => rfl) a2.all,
    fun t => key _ (fun _ _ => rfl) (a2.mem t), fun s => key _ (fun _ _ => rfl) (a2.bys s),
    fun s p => key _ (fun _ _ => rfl) (a2.bysp s p),
    fun p hp => key _ (fun _ _ => rfl) (a2.byp p hp), key _ (fun _ _ => rfl) n2⟩, ?_, ?_⟩
  · intro t
    rw [a3, h1.tripleExists, h2.tripleExists]
  · intro t
    rw [a4, h1.tripleExists, h2.tripleExists]

/-- C54 for the changes by object: right unless the layer is answered from the cache. From the
cache it is right for objects other than 0 that occur in the changes or are larger than all that do.
Missing: the other objects (`C54_changes_by_object_wrong`). -/
theorem C54_changes_by_object_partial {w : World K V} (h : Run true w) {v : View K V}
    (hv : v ∈ w.seen) {n : Name} (hn : v.store.has n = true) {l : InternalLayer K V}
    (hl : (n, l) ∈ w.held) {B : List (LayerData K V)} (hB : ParentStack w n B) :
    ∃ P N, v.additions n = .ok P ∧ v.removals n = .ok N ∧
      (∀ o, ((∀ c, v.cache n = some c → c.isRollup = true) ∨
          o ≠ 0 ∧ ((∃ t ∈ P, t.o = o) ∨ ∀ t ∈ P, t.o < o)) →
        v.additionsO n o = .ok (P.filter (fun t => t.o == o))) ∧
      ∀ o, ((∀ c, v.cache n = some c → c.isRollup = true) ∨
          o ≠ 0 ∧ ((∃ t ∈ N, t.o = o) ∨ ∀ t ∈ N, t.o < o)) →
        v.removalsO n o = .ok (N.filter (fun t => t.o == o)) := by
  obtain ⟨e, S, he, hr, h1, h2⟩ := stored_own h hl hB
  obtain ⟨e', he', hd⟩ := view_own h hv hn he
  have hc := (h.inv.seen _ hv).2.1
  obtain ⟨P, N, a1, a2, a3, a4⟩ := C10_stored_changes_by_object hr
  obtain ⟨P', N', b1, b2, b3, b4⟩ := C10_loaded_changes_by_object_partial hr
  have e1 : P' = P := by rw [a1] at b1; simpa using b1.symm
  have e2 : N' = N := by rw [a2] at b2; simpa using b2.symm
  subst e1 e2
  have key : ∀ {f g : LayerData K V → Option (List Triple)} (_ : ∀ d S, f (d.onTop S) = f d)
      {x : List Triple} {Q : Prop} (_ : Q → f e.data = some x) (_ : g e.data = some x),
      ((∀ c, v.cache n = some c → c.isRollup = true) ∨ Q) →
      v.via n (fun l => Out.ofOption (f l.data)) (·.onStored n g) = .ok x := by
    intro f g hf x Q hx hg hQ
    have hin : v.store.onStored n g = .ok x := by
      unfold Store.onStored
      rw [he']
      show Out.ofOption (g e'.data) = _
      rw [hd, hg]
      rfl
    unfold View.via
    cases hcn : v.cache n with
    | none => exact hin
    | some c =>
      show (if c.isRollup = true then _ else _) = _
      cases hroll : c.isRollup with
      | true => exact hin
      | false =>
        obtain ⟨k1, k2⟩ := hc n c hcn
        obtain ⟨e2, S', g1, g2⟩ := k1.own hroll
        rw [k2, he'] at g1
        cases g1
        rcases hQ with hQ | hQ
        · have := hQ c hcn
          rw [hroll] at this
          cases this
        · show Out.ofOption (f c.data) = _
          rw [g2, hf, hd, hx hQ]
          rfl
  refine ⟨P', N', ?_, ?_, ?_, ?_⟩
  · unfold View.additions
    rw [View.changes_eq hc he' (fun _ _ => rfl), hd, a1]
    rfl
  · unfold View.removals
    rw [View.changes_eq hc he' (fun _ _ => rfl), hd, a2]
    rfl
  · intro o
    exact key (f := fun d => d.pos.triplesO o) (g := fun d => d.pos.storedTriplesO o)
      (fun _ _ => rfl) (fun hq => b3 o hq.1 hq.2) (a3 o)
  · intro o
    exact key (f := fun d => Stack.removalsO d o) (g := fun d => Stack.storedRemovalsO d o)
      (fun _ _ => rfl) (fun hq => b4 o hq.1 hq.2) (a4 o)

/-- C54 fails for the changes by object: the answer depends on the cache. -/
theorem C54_changes_by_object_wrong : ∃ w : World Nat Nat, Run true w ∧
    View.additionsO ⟨w.store, w.cache⟩ 101 1 = .ok [⟨2, 3, 5⟩] ∧
    View.additionsO ⟨w.store, noCache⟩ 101 1 = .ok [] :=
  reaches_run (cs := commits ++ [.cache 1]) (by decide)

/-- Changes of a cached child layer. -/
example : ∃ w : World Nat Nat, Run true w ∧ (w.cache 101).isSome ∧
    View.additions ⟨w.store, w.cache⟩ 101 = .ok [⟨1, 2, 6⟩, ⟨2, 3, 5⟩] ∧
    View.removalsSP ⟨w.store, w.cache⟩ 101 1 1 = .ok [⟨1, 1, 4⟩] ∧
    View.additionsO ⟨w.store, w.cache⟩ 101 5 = .ok [⟨2, 3, 5⟩] ∧
    View.removalCount ⟨w.store, w.cache⟩ 101 = .ok 1 :=
  reaches_run (cs := commits ++ [.cache 1]) (by decide)

/-- C54 for the parent, unless a rollup was rolled up. Missing: rollups of rollups
(`C54_parent_wrong`). -/
theorem C54_parent_partial {w : World K V} (h : Run true w) (hf : w.log.noRollupOfRollup)
    {v : View K V} (hv : v ∈ w.seen) {n : Name} (hn : v.store.has n = true) :
    v.parentName n = .ok (w.log.parent n) ∧ v.store.layerParent n = .ok (w.log.parent n) := by
  obtain ⟨e, he⟩ := has_iff.1 hn
  obtain ⟨_, hc, hx, _⟩ := h.inv.seen _ hv
  obtain ⟨e2, g1, g2, _⟩ := hx n e he
  have : w.log.parent n = e.parent := by
    rw [← h.shape.parent n]
    unfold Store.parent?
    rw [g1]
    exact g2
  rw [this]
  refine ⟨View.parentName_eq hc ((h.named hf).seen _ hv) he, ?_⟩
  unfold Store.layerParent
  rw [he]

/-- C54 fails for the parent: a cached layer reports the rollup of its parent. -/
theorem C54_parent_wrong : ∃ w : World Nat Nat, Run true w ∧ w.log.parent 4 = some 3 ∧
    View.parentName ⟨w.store, w.cache⟩ 4 = .ok (some 50) ∧
    w.store.layerParent 4 = .ok (some 3) :=
  reaches_run (cs := four ++ [.rollupUpto 3 1 50, .load 50, .rollup 50 51,
    .child 3 4 [.addValue ⟨7, 7, .node 7⟩], .load 4, .cache 2]) (by decide)

/-- The parent of a cached layer whose parent was rolled up once. -/
example : ∃ w : World Nat Nat, Run true w ∧ (w.cache 4).isSome ∧
    View.parentName ⟨w.store, w.cache⟩ 4 = .ok (some 3) :=
  reaches_run (cs := four ++ [.rollupUpto 3 1 50, .child 3 4 [.addValue ⟨7, 7, .node 7⟩],
    .load 4, .cache 4]) (by decide)

/-- C54 for a name that no layer has: no dictionary and no count is returned, and questions about
changes are errors. -/
theorem C54_missing {w : World K V} (h : Run true w) {v : View K V} (hv : v ∈ w.seen) {n : Name}
    (hn : v.store.has n = false) :
    v.nodeDictionary n = none ∧ v.predicateDictionary n = none ∧ v.valueDictionary n = none ∧
      v.nodeCount n = none ∧ v.predicateCount n = none ∧ v.valueCount n = none ∧
      v.nodeValueIdMap n = none ∧ v.predicateIdMap n = none ∧
      v.additions n = .err ∧ v.removals n = .err ∧ v.additionCount n = .err ∧
      v.removalCount n = .err ∧ (∀ t, v.additionExists n t = .err) ∧
      (∀ t, v.removalExists n t = .err) ∧ (∀ o, v.additionsO n o = .err) ∧
      ∀ o, v.removalsO n o = .err := by
  obtain ⟨ho, hc, _⟩ := h.inv.seen _ hv
  have hg : v.store.get? n = none := by
    cases hq : v.store.get? n with
    | none => rfl
    | some e => unfold Store.has at hn; rw [hq] at hn; cases hn
  have hs : ∀ {α : Type} (f : LayerData K V → α), v.store.stored? n f = none := by
    intro α f; unfold Store.stored?; rw [hg]; rfl
  refine ⟨(View.via_none ho hc hg _ _).trans (hs _), (View.via_none ho hc hg _ _).trans (hs _),
    (View.via_none ho hc hg _ _).trans (hs _), (View.via_none ho hc hg _ _).trans (hs _),
    (View.via_none ho hc hg _ _).trans (hs _), (View.via_none ho hc hg _ _).trans (hs _),
    (View.via_none ho hc hg _ _).trans (hs _), (View.via_none ho hc hg _ _).trans (hs _),
    View.changes_none ho hc hg _, View.changes_none ho hc hg _, View.changes_none ho hc hg _,
    View.changes_none ho hc hg _, fun t => View.changes_none ho hc hg _,
    fun t => View.changes_none ho hc hg _, fun o => ?_, fun o => ?_⟩
  · unfold View.additionsO
    rw [View.via_none ho hc hg]
    unfold Store.onStored
    rw [hg]
  · unfold View.removalsO
    rw [View.via_none ho hc hg]
    unfold Store.onStored
    rw [hg]

example : ∃ w : World Nat Nat, Run true w ∧ w.store.has 7 = false ∧ w.store.has 102 = true :=
  reaches_run (cs := commits) (by decide)

end Verif
