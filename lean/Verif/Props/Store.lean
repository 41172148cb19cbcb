import Verif.Lemmas.WorldMore
import Verif.Lemmas.WorldThrough
import Verif.Lemmas.StoreFresh
import Verif.Lemmas.Decides
import Verif.Props.StoreWitness

/-!
Properties of the layer store, over all executions of many tasks (`World.Run`): commits,
loads, cache changes, rollups, squashes and registrations in any order. The
specification is `Spec.History`: the parent and the triples of each layer, read off the
operations that made layers.

`Run true` limits `rollup_upto` and `imprecise_rollup_upto` to the cases in which the code
is right; `Run false` does not. Theorems over `Run true` carry the suffix `_partial`; the
theorems `…_wrong` show that the limits are needed.
-/

set_option linter.unusedSectionVars false

namespace Verif

open SimpleBuilder Spec

variable {K V : Type} [LinearOrder K] [LinearOrder V]

namespace World

open Store Witness

/-! ### C29, C30, C53: parent links -/

/-- C29: the ancestry check terminates and is reachability through parents. -/
theorem C29_ancestor_check {safe : Bool} {w : World K V} (h : Run safe w)
    (descendant ancestor : Name) :
    ∃ b, w.store.isAncestor descendant ancestor = .ok b ∧
      (b = true ↔ w.log.Ancestor ancestor descendant) :=
  h.shape.closed.isAncestor h.shape.parent descendant ancestor

example : ∃ w : World Nat Nat, Run false w ∧ w.store.isAncestor 102 100 = .ok true ∧
    w.store.isAncestor 100 102 = .ok false := reaches_run (cs := commits) (by decide)

/-- C30: the names of the layer stack are the line of ancestors, oldest first. -/
theorem C30_stack_names {safe : Bool} {w : World K V} (h : Run safe w) (n : Name)
    (ns : List Name) : w.store.stackNames n = .ok ns ↔ w.log.Line n ns := by
  obtain ⟨ms, h1, h2⟩ := h.shape.closed.stackNames h.shape.parent n
  constructor
  · intro hn
    rw [h2] at hn
    cases hn
    exact h1
  · intro hn
    rw [h1.unique hn] at h2
    exact h2

example : ∃ w : World Nat Nat, Run false w ∧ w.store.stackNames 102 = .ok [100, 101, 102] :=
  reaches_run (cs := commits ++ [.rollup 102 200]) (by decide)

/-- C30: the names strictly above an ancestor. -/
theorem C30_stack_names_upto {safe : Bool} {w : World K V} (h : Run safe w) (n upto : Name)
    (ns : List Name) : w.store.stackNamesUpto n upto = .ok ns ↔
      ns ≠ [] ∧ ∃ us, w.log.Line upto us ∧ w.log.Line n (us ++ ns) := by
  obtain ⟨h1, h2⟩ := h.shape.closed.stackNamesUpto h.shape.parent n upto
  constructor
  · intro hn
    by_cases hs : ∃ p, w.log.parent n = some p ∧ w.log.Ancestor upto p
    · obtain ⟨ms, us, g1, g2, g3, g4⟩ := h1 hs
      rw [g1] at hn
      cases hn
      exact ⟨g4, us, g2, g3⟩
    · rw [h2 hs] at hn
      cases hn
  · rintro ⟨hne, us, g1, g2⟩
    have hs : ∃ p, w.log.parent n = some p ∧ w.log.Ancestor upto p := by
      have hu : upto ∈ us := (g1.ancestor upto).2 (.self upto)
      generalize hk : us ++ ns = ks at g2
      cases g2 with
      | root g =>
        have : us.length + ns.length = 1 := by rw [← List.length_append, hk]; rfl
        have h3 : 0 < us.length := List.length_pos_of_mem hu
        have h4 : 0 < ns.length := List.length_pos_of_ne_nil hne
        omega
      | @step _ p ps g k =>
        refine ⟨p, g, (k.ancestor upto).1 ?_⟩
        obtain ⟨as, a, rfl⟩ : ∃ as a, ns = as ++ [a] :=
          ⟨ns.dropLast, ns.getLast hne, (List.dropLast_concat_getLast hne).symm⟩
        rw [← List.append_assoc] at hk
        have := (List.append_inj' hk rfl).1
        rw [← this]
        exact List.mem_append_left _ hu
    obtain ⟨ms, us', k1, k2, k3, k4⟩ := h1 hs
    cases k2.unique g1
    have := k3.unique g2
    rw [List.append_cancel_left this] at k1
    exact k1

example : ∃ w : World Nat Nat, Run false w ∧ w.store.stackNamesUpto 102 100 = .ok [101, 102] :=
  reaches_run (cs := commits) (by decide)

/-- C30: the bounded variant fails with an error, and only when the bound is not a strict
ancestor. -/
theorem C30_stack_names_upto_fails {safe : Bool} {w : World K V} (h : Run safe w)
    (n upto : Name) : w.store.stackNamesUpto n upto = .err ↔
      ¬ ∃ p, w.log.parent n = some p ∧ w.log.Ancestor upto p := by
  obtain ⟨h1, h2⟩ := h.shape.closed.stackNamesUpto h.shape.parent n upto
  constructor
  · intro he hs
    obtain ⟨ms, us, g1, _⟩ := h1 hs
    rw [g1] at he
    cases he
  · exact h2

example : ∃ w : World Nat Nat, Run false w ∧ w.store.stackNamesUpto 100 102 = .err ∧
    w.store.stackNamesUpto 102 102 = .err := reaches_run (cs := commits) (by decide)

/-- C53: from every layer the parent links end at a layer without parent, all layers on the
way exist, and no layer is met twice. -/
theorem C53_parents_end {safe : Bool} {w : World K V} (h : Run safe w) {n : Name}
    (hn : w.log.known n) :
    ∃ ns, w.log.Line n ns ∧ ns.Nodup ∧ (∀ m ∈ ns, w.log.known m) ∧
      ∃ b, ns.head? = some b ∧ w.log.parent b = none := by
  have hn' := (h.shape.known n).2 hn
  obtain ⟨ns, h1, _⟩ := h.shape.closed n hn'
  refine ⟨ns.reverse, h1.line h.shape.parent, ?_, ?_, ?_⟩
  · exact List.nodup_reverse.2 h1.nodup
  · intro m hm
    exact (h.shape.known m).1 (h1.has m (List.mem_reverse.1 hm))
  · have hl := h1.line h.shape.parent
    exact hl.head

/-- C53: `layer_parent` gives the parent that was recorded when the layer was made, at every
later moment; unknown names are refused. -/
theorem C53_parent_fixed {safe : Bool} {w w' : World K V} (h : Run safe w)
    (hl : Later safe w w') {n : Name} (hn : w.log.known n) :
    w'.store.layerParent n = .ok (w.log.parent n) ∧ w'.log.parent n = w.log.parent n := by
  have hn' := (h.shape.known n).2 hn
  obtain ⟨e, he⟩ := has_iff.1 hn'
  obtain ⟨e', he', hp, _⟩ := hl.ext n e he
  have h1 : w.store.parent? n = e.parent := by simp [Store.parent?, he]
  have h2 : w'.store.parent? n = e.parent := by simp [Store.parent?, he', hp]
  constructor
  · unfold Store.layerParent
    rw [he', ← h.shape.parent n, h1]
    simp [hp]
  · rw [← (hl.run h).shape.parent n, h2, ← h.shape.parent n, h1]

theorem C53_unknown {safe : Bool} {w : World K V} (h : Run safe w) {n : Name} :
    w.store.layerParent n = .err ↔ ¬ w.log.known n := by
  rw [← h.shape.known n]
  unfold Store.layerParent Store.has
  cases w.store.get? n <;> simp

example : ∃ w : World Nat Nat, Run false w ∧ w.store.layerParent 102 = .ok (some 101) ∧
    w.store.layerParent 100 = .ok none ∧ w.store.layerParent 5 = .err :=
  reaches_run (cs := commits ++ [.rollup 102 200]) (by decide)

/-! ### C31: get_layer -/

/-- C31: with nothing else going on, `get_layer` does not fail, and finds exactly the layers
that were made. -/
theorem C31_get_layer_total_partial {w : World K V} (h : Run true w) (n : Name) :
    ∃ r, w.store.getLayer w.cache n = .ok r ∧ (r.1.isSome = true ↔ w.log.known n) := by
  obtain ⟨r, h1, h2⟩ := getLayer_total h.inv.ok h.inv.cache n
  exact ⟨r, h1, by rw [h2]; exact h.shape.known n⟩

/-- C31: a layer that was returned for a name, in whatever state of the cache and of the
rollups, and while whatever else was going on, has the triples of that name. If no rollup
was itself rolled up, it has the name and the parent. -/
theorem C31_get_layer_partial {w : World K V} (h : Run true w) {n : Name}
    {l : InternalLayer K V} (hl : (n, l) ∈ w.held) :
    w.log.known n ∧
    (∀ t, ∃ b, Stack.valueTripleExists l.stack t = some b ∧ (b = true ↔ w.log.triples n t)) ∧
    (w.log.noRollupOfRollup → l.name = n ∧ l.parentName = w.log.parent n) := by
  refine ⟨(h.shape.known n).1 (h.shape.held _ hl), fun t => h.inv.exists_iff (h.inv.held _ hl).2 t,
    fun hf => ?_⟩
  obtain ⟨h1, h2⟩ := (h.named hf).held _ hl
  refine ⟨h2, ?_⟩
  rw [h1.parentName (h.inv.held _ hl).1, h.shape.parent, h2]

/-- C31: the layer that a builder wrote is, at every later moment, the layer that is
returned: it answers all queries as the layer that was committed. -/
theorem C31_committed_partial {w w' : World K V} (h : Run true w) {p new : Name}
    {l : InternalLayer K V} {ops : List (Op K V)} {d : LayerData K V} (hl : (p, l) ∈ w.held)
    (hn : w.store.get? new = none) (hk : ∀ op ∈ ops, IdsKnown l.stack op)
    (hd : Commits l.stack ops d)
    (hlater : Later true
      { w with store := (new, { parent := some p, data := d }) :: w.store
               past := w.seen
               log := .commit new (some p) (ops.filterMap (opCall l.stack)) :: w.log } w')
    {l' : InternalLayer K V} (hl' : (new, l') ∈ w'.held) :
    SameAnswers (d :: l.stack) l'.stack := by
  obtain ⟨R, r1, r2, _⟩ := (h.inv.held _ hl).2
  have hr : Reachable (d :: l.stack) := ((h.inv.held _ hl).1.reachable h.inv.ok).commit hk hd
  have a1 : Alike (d :: l.stack) (d :: R) := Alike.reload (T := [d]) hr r2.symm
  have hb : Below w.store { parent := some p, data := d } R := r1
  have hraw := (Below.raw hn hb a1.right.onTop).ext hlater.ext
  have hrun := hlater.run (.step h (.commit hl hn hk hd))
  obtain ⟨S, s1, s2, _⟩ := (hrun.inv.held _ hl').2
  cases s1.unique hraw
  exact (a1.trans s2).answers

/-- A run with a rollup, an emptied cache and two loads of the same name that give different
stacks of files. -/
example : ∃ w : World Nat Nat, Run true w ∧
    tells w 102 ⟨0, 9, .node 1⟩ [(102, some 101, [102], some true),
      (102, some 101, [102, 101, 100], some true)] ∧
    tells w 102 ⟨2, 12, .node 4⟩ [(102, some 101, [102], some false),
      (102, some 101, [102, 101, 100], some false)] :=
  reaches_run (cs := commits ++ [.rollup 102 200, .dropAll, .load 102]) (by decide)

/-! ### C19: layers do not change -/

/-- C19: two layers returned for the same name, at whatever moments, answer all queries
alike. Missing: histories with a rollup down to an ancestor that is not safe. -/
theorem C19_layers_stay_partial {w w' : World K V} (h : Run true w) (hw : Later true w w')
    {n : Name} {l l' : InternalLayer K V} (hl : (n, l) ∈ w.held) (hl' : (n, l') ∈ w'.held) :
    SameAnswers l.stack l'.stack := by
  have h' := hw.run h
  exact (Stands.alike (h'.inv.held _ (hw.held _ hl)).2 (h'.inv.held _ hl').2).answers

/-- C19: nothing that happens later changes the triples or the parent of a layer. -/
theorem C19_contents_stay_partial {w w' : World K V} (h : Run true w) (hw : Later true w w')
    {n : Name} {l l' : InternalLayer K V} (hl : (n, l) ∈ w.held) (hl' : (n, l') ∈ w'.held)
    (hf : w'.log.noRollupOfRollup) : l'.name = l.name ∧ l'.parentName = l.parentName := by
  have h' := hw.run h
  obtain ⟨_, _, h1⟩ := C31_get_layer_partial h' hl'
  obtain ⟨_, _, h2⟩ := C31_get_layer_partial h' (hw.held _ hl)
  obtain ⟨g1, g2⟩ := h1 hf
  obtain ⟨k1, k2⟩ := h2 hf
  exact ⟨g1.trans k1.symm, g2.trans k2.symm⟩

/-- C19 and C31 fail in general: the parent that a layer reports changes when its rollup is
itself rolled up. -/
theorem C31_name_wrong : ∃ (w : World Nat Nat) (l l' : InternalLayer Nat Nat), Run true w ∧
    (3, l) ∈ w.held ∧ (3, l') ∈ w.held ∧ l.name = 3 ∧ l.parentName = some 2 ∧
    l'.name = 50 ∧ l'.parentName = some 1 := by
  obtain ⟨w, h1, h2⟩ := reaches_run (safe := true)
    (cs := four ++ [.rollupUpto 3 1 50, .load 50, .rollup 50 51, .load 3])
    (P := fun w => reports w 3 ⟨1, 10, .node 2⟩ =
      [(50, some 1, [50], some true), (3, some 2, [3, 2, 1, 0], some true)]) (by decide)
  obtain ⟨l, a1, a2, a3, _⟩ := mem_reports (w := w) (n := 3) (t := ⟨1, 10, .node 2⟩) (m := 3)
    (p := some 2) (ns := [3, 2, 1, 0]) (b := some true) (by rw [h2]; simp)
  obtain ⟨l', b1, b2, b3, _⟩ := mem_reports (w := w) (n := 3) (t := ⟨1, 10, .node 2⟩) (m := 50)
    (p := some 1) (ns := [50]) (b := some true) (by rw [h2]; simp)
  exact ⟨w, l, l', h1, a1, b1, a2, a3, b2, b3⟩

/-! ### C23, C24, C25: rollups -/

theorem flat_congr {h : History (VTriple K V)} {new n : Name} {p p' : Option Name}
    (hf : History.noRollupOfRollup (.rollup new n p :: h)) :
    History.noRollupOfRollup (.rollup new n p' :: h) := by
  have : ∀ a b, History.rolledUp (.rollup new n p' :: h) a b →
      History.rolledUp (.rollup new n p :: h) a b := by
    rintro a b ⟨q, hq⟩
    rcases List.mem_cons.1 hq with hq | hq
    · cases hq
      exact ⟨p, List.mem_cons_self ..⟩
    · exact ⟨q, List.mem_cons_of_mem _ hq⟩
  exact fun a b c h1 h2 => hf a b c (this a b h1) (this b c h2)

/-- What it means that a rollup of `l` that left the store `st'` is transparent: with
whatever is left of the cache, the layer loads again, answers all queries as before, and has
the name and parent it had if the history has no rollup of a rollup. -/
def Transparent (w : World K V) (l : InternalLayer K V) (new : Name) (st' : Store K V) : Prop :=
  ∀ c : Cache K V, (∀ n x, c n = some x → w.cache n = some x) →
    ∃ l' cs, st'.getLayer c l.name = .ok (some l', cs) ∧ SameAnswers l.stack l'.stack ∧
      (History.noRollupOfRollup (.rollup new l.name none :: w.log) →
        l'.name = l.name ∧ l'.parentName = l.parentName)

theorem transparent_of_planned {w : World K V} (h : Run true w) {q new : Name}
    {l : InternalLayer K V} (hl : (q, l) ∈ w.held) (hn : w.store.get? new = none)
    {pl : Plan K V} (hp : (.rollup l.name, pl) ∈ w.plans) :
    Transparent w l new
      (registerRollup (pl.apply new w.store).2 l.name (pl.apply new w.store).1) := by
  intro c hc
  obtain ⟨w', r1, r2, r3, r4, r5⟩ := h.rollup (new := new) hp hn
  have hlok := (h.inv.held _ hl).1
  have hl' : (q, l) ∈ w'.held := by rw [r4]; exact hl
  have hlok' := (r1.inv.held _ hl').1
  have hst' := hlok'.stands r1.inv.ok
  have hhas : w'.store.has l.name = true := by
    obtain ⟨S, hS, _⟩ := hst'
    exact hS.has
  obtain ⟨l', cs, w'', s1, s2, s3, s4, s5⟩ := r1.reload (c := c) (by rw [r3]; exact hc) hhas
  rw [r2] at s1
  have hheld : (l.name, l') ∈ w''.held := by rw [s5]; exact List.mem_cons_self ..
  have hlw : (q, l) ∈ w''.held := by rw [s5]; exact List.mem_cons_of_mem _ hl'
  refine ⟨l', cs, s1, ?_, ?_⟩
  · exact (Stands.alike ((s2.inv.held _ hlw).1.stands s2.inv.ok) (s2.inv.held _ hheld).2).answers
  · intro hf
    have hf' : w''.log.noRollupOfRollup := by
      rw [s4]
      rcases r5 with r5 | ⟨p, r5⟩
      · rw [r5]
        exact rolledUp_mono (fun _ h => List.mem_cons_of_mem _ h) hf
      · rw [r5]
        exact flat_congr hf
    have hn := s2.named hf'
    obtain ⟨g1, g2⟩ := hn.held _ hheld
    refine ⟨g2, ?_⟩
    rw [g1.parentName (s2.inv.held _ hheld).1, g2,
      (hn.held _ hlw).1.parentName (s2.inv.held _ hlw).1]

theorem transparent_of_plan {w : World K V} (h : Run true w) {q new : Name}
    {l : InternalLayer K V} (hl : (q, l) ∈ w.held) (hn : w.store.get? new = none)
    {pl : Plan K V} (hs : Step true w { w with plans := (.rollup l.name, pl) :: w.plans, past := w.seen }) :
    Transparent w l new
      (registerRollup (pl.apply new w.store).2 l.name (pl.apply new w.store).1) :=
  transparent_of_planned (Run.step h hs) hl hn (List.mem_cons_self ..)

theorem registered {w : World K V} (h : Run true w) {q new upto : Name} {l : InternalLayer K V}
    (hl : (q, l) ∈ w.held) (hn : w.store.get? new = none) (hq : l.name = q) {e : Entry K V}
    (he : e.parent = some upto) :
    (registerRollup ((new, e) :: w.store) l.name new).rollup? q = some new ∧
    (registerRollup ((new, e) :: w.store) l.name new).parent? new = some upto := by
  subst hq
  obtain ⟨S, hS, _⟩ := (h.inv.held _ hl).1.stands h.inv.ok
  obtain ⟨x, hx⟩ := has_iff.1 hS.has
  have hne : l.name ≠ new := by
    intro hh
    rw [hh, hn] at hx
    cases hx
  unfold registerRollup
  rw [if_neg hne]
  constructor
  · unfold rollup?
    rw [get?_setRollup, if_pos rfl]
    simp [Store.get?, Ne.symm hne, hx]
  · unfold parent?
    rw [get?_setRollup, if_neg (Ne.symm hne)]
    simp [Store.get?, he]

/-- C23: a rollup succeeds and is transparent. Missing: histories with a rollup down to an
ancestor that is not safe, and names and parents after a rollup of a rollup. -/
theorem C23_rollup_partial {w : World K V} (h : Run true w) {q new : Name}
    {l : InternalLayer K V} (hl : (q, l) ∈ w.held) (hn : w.store.get? new = none) :
    ∃ r st', w.store.rollup l new = .ok (r, st') ∧ Transparent w l new st' := by
  obtain ⟨pl, hp⟩ := performRollup_total h.inv.ok (h.inv.held _ hl).1
  refine ⟨(pl.apply new w.store).1,
    registerRollup (pl.apply new w.store).2 l.name (pl.apply new w.store).1, ?_,
    transparent_of_plan h hl hn (.planRollup hl hp)⟩
  simp only at hp
  simp only [Store.rollup, hp, Out.ok_bind, Out.pure_eq]

/-- C23 while other tasks are running. The rollup sees `v 0` when it looks for the rollup file, and
later moments when it reads it and when it looks for the parent of the rollup. It decides something,
namely what it would have decided at one of the moments; and whatever happens until it writes
and registers its layer, that is transparent. Missing: as in `C23_rollup_partial`. -/
theorem C23_rollup_concurrent_partial {w : World K V} (h : Run true w) {q : Name}
    {l : InternalLayer K V} (hl : (q, l) ∈ w.held) {v : Nat → View K V} (hv : w.Sees v) :
    ∃ pl, performRollupView v l = .ok pl ∧ (∃ u ∈ w.seen, performRollup u.store l = .ok pl) ∧
      ∀ w', Later true { w with plans := (.rollup l.name, pl) :: w.plans, past := w.seen } w' →
        ∀ new, w'.store.get? new = none → Transparent w' l new
          (registerRollup (pl.apply new w'.store).2 l.name (pl.apply new w'.store).1) := by
  obtain ⟨pl, hp, hu⟩ := decides h hl hv
  have hs := Run.step h (.decideRollup hl hv hp)
  exact ⟨pl, hp, hu, fun w' hw' new hn => transparent_of_planned (hw'.run hs) (hw'.held _ hl) hn
    (hw'.plans _ (List.mem_cons_self ..))⟩

/-- A rollup sees a rollup file that another rollup replaces before it is read. -/
example : ∃ (w : World Nat Nat) (v : Nat → View Nat Nat) (l : InternalLayer Nat Nat), Run true w ∧
    (3, l) ∈ w.held ∧ w.Sees v ∧ (v 0).store.rollup? 3 = some 50 ∧
    (v 1).store.rollup? 3 = some 51 ∧ (v 2).store.parent? 50 = some 1 ∧
    (v 2).store.parent? 51 = none := by
  obtain ⟨w, h1, h2, h3, h4⟩ := reaches_run (safe := true)
    (cs := four ++ [.rollupUpto 3 1 50, .load 3, .rollup 3 51])
    (P := fun w => (w.seen[1]?.bind (·.store.rollup? 3) = some 50 ∧ w.store.rollup? 3 = some 51) ∧
      (w.store.parent? 50 = some 1 ∧ w.store.parent? 51 = none) ∧
      (w.held.find? (·.1 = 3)).isSome = true) (by decide)
  obtain ⟨u, hu, hr⟩ := Option.bind_eq_some_iff.1 h2.1
  obtain ⟨⟨n, l⟩, hf⟩ := Option.isSome_iff_exists.1 h4
  have hn := List.find?_some hf
  simp only [decide_eq_true_eq] at hn
  subst hn
  refine ⟨w, fun t => if t = 0 then u else ⟨w.store, w.cache⟩, l, h1, List.mem_of_find?_eq_some hf,
    ⟨fun t => if t = 0 then 1 else 0, fun t => ?_, fun t => ?_⟩, hr, h2.2, h3.1, h3.2⟩
  · simp
  · by_cases ht : t = 0
    · subst ht
      exact ⟨u, hu, rfl, fun _ _ h => h⟩
    · refine ⟨⟨w.store, w.cache⟩, ?_, ?_, ?_⟩ <;> simp [ht, World.seen]

/-- C24: a rollup down to an ancestor that does not fail is transparent if it writes
no layer, or none of the loaded layers it merges has an id map. Missing: the other cases, in which it goes wrong. -/
theorem C24_rollup_upto_partial {w : World K V} (h : Run true w) {q upto new : Name}
    {l : InternalLayer K V} (hl : (q, l) ∈ w.held) (hn : w.store.get? new = none)
    {r : Name} (hsafe : r = new → ∀ bound mem, w.store.safeUptoBound l upto = .ok bound →
      immediateLayersUpto l bound = .ok mem → ∀ e ∈ mem, e.pMap = e.nvMap)
    {st' : Store K V} (hr : w.store.rollupUpto w.cache l upto new = .ok (r, st')) :
    Transparent w l new st' := by
  unfold Store.rollupUpto at hr
  obtain ⟨pl, hp, h2⟩ := Out.bind_eq_ok.1 hr
  simp only [Out.pure_eq, Out.ok.injEq, Prod.mk.injEq] at h2
  rw [← h2.2]
  exact transparent_of_plan h hl hn (.planRollupUpto hl (fun _ _ h => h) (fun _ e he => hsafe (by rw [← h2.1, he]; rfl)) hp)

/-- C25: an imprecise rollup down to an ancestor that does not fail is transparent if it
writes no layer, or the bound it finds is that ancestor. Missing: the other cases, in which it loses changes. -/
theorem C25_imprecise_rollup_upto_partial {w : World K V} (h : Run true w) {q upto new : Name}
    {l : InternalLayer K V} (hl : (q, l) ∈ w.held) (hn : w.store.get? new = none)
    {r : Name} (hsafe : r = new → ∀ bound, w.store.safeUptoBound l upto = .ok bound →
      bound = upto) {st' : Store K V}
    (hr : w.store.impreciseRollupUpto w.cache l upto new = .ok (r, st')) :
    Transparent w l new st' := by
  unfold Store.impreciseRollupUpto at hr
  obtain ⟨pl, hp, h2⟩ := Out.bind_eq_ok.1 hr
  simp only [Out.pure_eq, Out.ok.injEq, Prod.mk.injEq] at h2
  rw [← h2.2]
  exact transparent_of_plan h hl hn (.planImpreciseRollupUpto hl (fun _ _ h => h) (fun _ e he => hsafe (by rw [← h2.1, he]; rfl)) hp)

/-- C24 in terms of the history: when nothing above `upto` was rolled up, a rollup
down to it succeeds and is transparent; if there is something to roll up, then what is
written has `upto` as parent and is registered. -/
theorem C24_rollup_upto_untouched_partial {w : World K V} (h : Run true w)
    (hf : w.log.noRollupOfRollup) {q upto new : Name} {l : InternalLayer K V} (hl : (q, l) ∈ w.held)
    (hn : w.store.get? new = none)
    (hu : ∃ p, w.log.parent q = some p ∧ w.log.Ancestor upto p) (hx : w.log.untouched q upto) :
    ∃ r st', w.store.rollupUpto w.cache l upto new = .ok (r, st') ∧ Transparent w l new st' ∧
      (w.log.parent q ≠ some upto →
        r = new ∧ st'.rollup? q = some new ∧ st'.parent? new = some upto) := by
  have hq : l.name = q := ((h.named hf).held _ hl).2
  obtain ⟨h1, _, h3⟩ := h.rollupUpto_plan hf hl hu (h.unregistered hx) h.inv.cache
  by_cases hp : w.log.parent q = some upto
  · have hpn : l.parentName = some upto := by
      rw [((h.named hf).held _ hl).1.parentName (h.inv.held _ hl).1, hq, h.shape.parent]
      exact hp
    have hpl : performRollupUpto w.store w.cache l upto = .ok (.existing l.name) := by
      unfold performRollupUpto performRollupUptoWith
      split
      · rfl
      · rfl
    refine ⟨l.name, _, by simp only [Store.rollupUpto, hpl, Out.ok_bind, Out.pure_eq]; rfl, ?_,
      fun g => absurd hp g⟩
    exact transparent_of_plan h hl hn (.planRollupUpto hl (fun _ _ h => h) (fun _ e he => by cases he) hpl)
  · obtain ⟨⟨e, h4, h5⟩, _⟩ := h3 hp
    refine ⟨new, _, by simp only [Store.rollupUpto, h4, Out.ok_bind, Out.pure_eq]; rfl, ?_, ?_⟩
    · exact transparent_of_plan h hl hn (.planRollupUpto hl (fun _ _ h => h) (fun _ e he => h1) h4)
    · intro _
      exact ⟨rfl, registered h hl hn hq h5⟩

/-- C25 in terms of the history, as for C24. -/
theorem C25_imprecise_rollup_upto_untouched_partial {w : World K V} (h : Run true w)
    (hf : w.log.noRollupOfRollup) {q upto new : Name} {l : InternalLayer K V} (hl : (q, l) ∈ w.held)
    (hn : w.store.get? new = none)
    (hu : ∃ p, w.log.parent q = some p ∧ w.log.Ancestor upto p) (hx : w.log.untouched q upto) :
    ∃ r st', w.store.impreciseRollupUpto w.cache l upto new = .ok (r, st') ∧
      Transparent w l new st' ∧
      (w.log.parent q ≠ some upto →
        r = new ∧ st'.rollup? q = some new ∧ st'.parent? new = some upto) := by
  have hq : l.name = q := ((h.named hf).held _ hl).2
  obtain ⟨_, h1, h3⟩ := h.rollupUpto_plan hf hl hu (h.unregistered hx) h.inv.cache
  by_cases hp : w.log.parent q = some upto
  · have hpn : l.parentName = some upto := by
      rw [((h.named hf).held _ hl).1.parentName (h.inv.held _ hl).1, hq, h.shape.parent]
      exact hp
    have hpl : performImpreciseRollupUpto w.store w.cache l upto = .ok (.existing l.name) := by
      unfold performImpreciseRollupUpto performRollupUptoWith
      split
      · rfl
      · rfl
    refine ⟨l.name, _, by simp only [Store.impreciseRollupUpto, hpl, Out.ok_bind, Out.pure_eq]; rfl,
      ?_, fun g => absurd hp g⟩
    exact transparent_of_plan h hl hn (.planImpreciseRollupUpto hl (fun _ _ h => h) (fun _ e he => by cases he) hpl)
  · obtain ⟨_, ⟨e, h4, h5⟩⟩ := h3 hp
    refine ⟨new, _, by simp only [Store.impreciseRollupUpto, h4, Out.ok_bind, Out.pure_eq]; rfl,
      ?_, ?_⟩
    · exact transparent_of_plan h hl hn (.planImpreciseRollupUpto hl (fun _ _ h => h) (fun _ e he => h1) h4)
    · intro _
      exact ⟨rfl, registered h hl hn hq h5⟩

/-- C24, C25, C27: what a rollup or squash down to an ancestor writes does not depend on when and how the
ancestor was loaded, or on the moment at which the other files were read. -/
theorem C24_ancestor_any_load_partial {w w' : World K V} (h : Run true w) (hw : Later true w w')
    {m : Name} {p p' : InternalLayer K V} (hp : (m, p) ∈ w.held) (hp' : (m, p') ∈ w'.held)
    (st : Store K V) (l : InternalLayer K V) (nv np : Nat) (T : List (LayerData K V)) :
    preciseDelta m st l p.stack = preciseDelta m st l p'.stack ∧
    impreciseDelta m st l p.stack = impreciseDelta m st l p'.stack ∧
    Rollup.squashUpto nv np T p.stack = Rollup.squashUpto nv np T p'.stack := by
  have ha := C19_layers_stay_partial h hw hp hp'
  have h1 := ha.nodeAndValueCount
  have h2 := ha.predicateCount
  unfold preciseDelta impreciseDelta Rollup.deltaRollupUpto Rollup.impreciseDeltaRollupUpto
    Rollup.squashUpto Rollup.writeDelta
  rw [h1, h2]
  exact ⟨rfl, rfl, rfl⟩

/-- Two loads of the ancestor 1, from different files. -/
example : ∃ w : World Nat Nat, Run true w ∧ reports w 1 ⟨1, 10, .node 2⟩ =
    [(1, some 0, [1], some true), (1, some 0, [1, 0], some true)] :=
  reaches_run (cs := four ++ [.rollup 1 50, .load 1]) (by decide)

/-- Layer 1 was rolled up, nothing above it was, and 3 is rolled up to it. -/
example : ∃ w : World Nat Nat, Run true w ∧
    (w.store.rollup? 1 = some 50 ∧ w.store.rollup? 3 = some 51 ∧ w.store.parent? 51 = some 1) ∧
    reports w 3 ⟨1, 20, .node 2⟩ =
    [(3, some 2, [3, 1], some true), (3, some 2, [3, 2, 1, 0], some true)] :=
  reaches_run (cs := four ++ [.rollup 1 50, .rollupUpto 3 1 51, .load 3]) (by decide)

/-- Rollups, one on top of the other, and loads in between; all steps are safe. -/
example : ∃ w : World Nat Nat, Run true w ∧ reports w 3 ⟨1, 20, .node 2⟩ =
    [(3, some 2, [3], some true), (3, some 2, [3, 1, 0], some true),
     (3, some 2, [3, 2, 1, 0], some true)] :=
  reaches_run (cs := four ++ [.rollupUpto 3 1 50, .load 3, .rollup 3 51, .load 3]) (by decide)

/-- An imprecise rollup that is safe although one of the layers has a rollup. -/
example : ∃ w : World Nat Nat, Run true w ∧ reports w 3 ⟨1, 20, .node 2⟩ =
    [(3, some 2, [3, 0], some true), (3, some 2, [3, 2, 0], some true),
     (3, some 2, [3, 2, 1, 0], some true)] :=
  reaches_run (cs := four ++ [.rollupUpto 2 0 50, .load 3, .impreciseRollupUpto 3 0 51, .load 3])
    (by decide)

/-- C24 while other tasks are running, when nothing above `upto` was rolled up until the decision.
The rollup sees `v 0` when it looks for a rollup file, and later moments in the rounds of loading
`upto`, which was there at the first. After enough rounds it decides, and whatever happens until it writes and
registers its layer, that is transparent. Missing: as in `C24_rollup_upto_partial`. -/
theorem C24_rollup_upto_concurrent_partial {w : World K V} (h : Run true w)
    (hf : w.log.noRollupOfRollup) {q upto : Name} {l : InternalLayer K V} (hl : (q, l) ∈ w.held)
    (hu : ∃ p, w.log.parent q = some p ∧ w.log.Ancestor upto p) (hx : w.log.untouched q upto)
    {v : Nat → View K V} (hv : w.Sees v) (hm : (v 0).store.has upto = true) :
    ∃ pl, (∃ f0, ∀ f, f0 ≤ f →
        performRollupUptoWithView (preciseDelta upto) v f w.store l upto = .ok pl) ∧
      (w.log.parent q = some upto → pl = .existing q) ∧
      (w.log.parent q ≠ some upto → ∃ e, pl = .write e ∧ e.parent = some upto) ∧
      ∀ w', Later true { w with plans := (.rollup l.name, pl) :: w.plans, past := w.seen } w' →
        ∀ new, w'.store.get? new = none → Transparent w' l new
          (registerRollup (pl.apply new w'.store).2 l.name (pl.apply new w'.store).1) := by
  have hq : l.name = q := ((h.named hf).held _ hl).2
  have hr : w.store.rollup? l.name = none := by
    rw [hq]
    exact (h.unregistered hx q (.self _) hu).1
  obtain ⟨h1, _, h3⟩ := h.rollupUpto_plan hf hl hu (h.unregistered hx) h.inv.cache
  have hvo := h.inv.sees hv
  have hm3 : (v 3).store.has upto = true :=
    has_mono (hvo.mono 2) (has_mono (hvo.mono 1) (has_mono (hvo.mono 0) hm))
  have next : ∀ pl, performRollupUpto w.store w.cache l upto = .ok pl →
      (∃ f0, ∀ f, f0 ≤ f →
        performRollupUptoWithView (preciseDelta upto) v f w.store l upto = .ok pl) ∧
      ∀ w', Later true { w with plans := (.rollup l.name, pl) :: w.plans, past := w.seen } w' →
        ∀ new, w'.store.get? new = none → Transparent w' l new
          (registerRollup (pl.apply new w'.store).2 l.name (pl.apply new w'.store).1) := by
    intro pl hp
    obtain ⟨f0, h4⟩ := decides_upto h hf (mk := preciseDelta upto) (fun st l S S' hs => by
      unfold preciseDelta Rollup.deltaRollupUpto Rollup.writeDelta
      rw [hs.nodeAndValueCount, hs.predicateCount]) hv hr hm3 h.inv.cache hp
    refine ⟨⟨f0, h4⟩, fun w' hw' new hn => ?_⟩
    have hs := Run.step h (.decideRollupUpto hl hv (fun _ _ _ => h1) (h4 f0 (Nat.le_refl _)))
    exact transparent_of_planned (hw'.run hs) (hw'.held _ hl) hn (hw'.plans _ (List.mem_cons_self ..))
  by_cases hp : w.log.parent q = some upto
  · have hpn : l.parentName = some upto := by
      rw [((h.named hf).held _ hl).1.parentName (h.inv.held _ hl).1, hq, h.shape.parent]
      exact hp
    have hpl : performRollupUpto w.store w.cache l upto = .ok (.existing l.name) := by
      unfold performRollupUpto performRollupUptoWith
      split
      · rfl
      · rfl
    obtain ⟨g1, g2⟩ := next _ hpl
    exact ⟨_, g1, fun _ => by rw [hq], fun g => absurd hp g, g2⟩
  · obtain ⟨⟨e, h4, h5⟩, _⟩ := h3 hp
    obtain ⟨g1, g2⟩ := next _ h4
    exact ⟨_, g1, fun g => absurd g hp, fun _ => ⟨e, rfl, h5⟩, g2⟩

/-- C25 while other tasks are running, as for C24. -/
theorem C25_imprecise_rollup_upto_concurrent_partial {w : World K V} (h : Run true w)
    (hf : w.log.noRollupOfRollup) {q upto : Name} {l : InternalLayer K V} (hl : (q, l) ∈ w.held)
    (hu : ∃ p, w.log.parent q = some p ∧ w.log.Ancestor upto p) (hx : w.log.untouched q upto)
    {v : Nat → View K V} (hv : w.Sees v) (hm : (v 0).store.has upto = true) :
    ∃ pl, (∃ f0, ∀ f, f0 ≤ f →
        performRollupUptoWithView (impreciseDelta upto) v f w.store l upto = .ok pl) ∧
      (w.log.parent q = some upto → pl = .existing q) ∧
      (w.log.parent q ≠ some upto → ∃ e, pl = .write e ∧ e.parent = some upto) ∧
      ∀ w', Later true { w with plans := (.rollup l.name, pl) :: w.plans, past := w.seen } w' →
        ∀ new, w'.store.get? new = none → Transparent w' l new
          (registerRollup (pl.apply new w'.store).2 l.name (pl.apply new w'.store).1) := by
  have hq : l.name = q := ((h.named hf).held _ hl).2
  have hr : w.store.rollup? l.name = none := by
    rw [hq]
    exact (h.unregistered hx q (.self _) hu).1
  obtain ⟨_, h1, h3⟩ := h.rollupUpto_plan hf hl hu (h.unregistered hx) h.inv.cache
  have hvo := h.inv.sees hv
  have hm3 : (v 3).store.has upto = true :=
    has_mono (hvo.mono 2) (has_mono (hvo.mono 1) (has_mono (hvo.mono 0) hm))
  have next : ∀ pl, performImpreciseRollupUpto w.store w.cache l upto = .ok pl →
      (∃ f0, ∀ f, f0 ≤ f →
        performRollupUptoWithView (impreciseDelta upto) v f w.store l upto = .ok pl) ∧
      ∀ w', Later true { w with plans := (.rollup l.name, pl) :: w.plans, past := w.seen } w' →
        ∀ new, w'.store.get? new = none → Transparent w' l new
          (registerRollup (pl.apply new w'.store).2 l.name (pl.apply new w'.store).1) := by
    intro pl hp
    obtain ⟨f0, h4⟩ := decides_upto h hf (mk := impreciseDelta upto) (fun st l S S' hs => by
      unfold impreciseDelta Rollup.impreciseDeltaRollupUpto Rollup.writeDelta
      rw [hs.nodeAndValueCount, hs.predicateCount]) hv hr hm3 h.inv.cache hp
    refine ⟨⟨f0, h4⟩, fun w' hw' new hn => ?_⟩
    have hs := Run.step h (.decideImpreciseRollupUpto hl hv (fun _ _ _ => h1) (h4 f0 (Nat.le_refl _)))
    exact transparent_of_planned (hw'.run hs) (hw'.held _ hl) hn (hw'.plans _ (List.mem_cons_self ..))
  by_cases hp : w.log.parent q = some upto
  · have hpn : l.parentName = some upto := by
      rw [((h.named hf).held _ hl).1.parentName (h.inv.held _ hl).1, hq, h.shape.parent]
      exact hp
    have hpl : performImpreciseRollupUpto w.store w.cache l upto = .ok (.existing l.name) := by
      unfold performImpreciseRollupUpto performRollupUptoWith
      split
      · rfl
      · rfl
    obtain ⟨g1, g2⟩ := next _ hpl
    exact ⟨_, g1, fun _ => by rw [hq], fun g => absurd hp g, g2⟩
  · obtain ⟨_, ⟨e, h4, h5⟩⟩ := h3 hp
    obtain ⟨g1, g2⟩ := next _ h4
    exact ⟨_, g1, fun g => absurd g hp, fun _ => ⟨e, rfl, h5⟩, g2⟩

/-- The layer that was rolled up and the rollup. -/
def rollupOf : Event (VTriple Nat Nat) → Option (Nat × Nat)
  | .rollup r n _ => some (n, r)
  | _ => none

/-- The ancestor 1 is rolled up between the first look and the rounds of loading it. -/
example : ∃ (w : World Nat Nat) (v : Nat → View Nat Nat) (l : InternalLayer Nat Nat), Run true w ∧
    (3, l) ∈ w.held ∧ w.Sees v ∧ (v 0).store.has 1 = true ∧ (v 0).store.rollup? 1 = none ∧
    (v 4).store.rollup? 1 = some 50 ∧ (∃ p, w.log.parent 3 = some p ∧ w.log.Ancestor 1 p) ∧
    w.log.untouched 3 1 ∧ w.log.noRollupOfRollup := by
  obtain ⟨w, h1, h2, h3, h4⟩ := reaches_run (safe := true) (cs := four ++ [.load 3, .rollup 1 50])
    (P := fun w => (w.seen.map (fun u => (u.store.has 1, u.store.rollup? 1))).take 2 =
        [(true, some 50), (true, none)] ∧
      (w.log.filterMap rollupOf = [(1, 50)] ∧
        [3, 2, 1, 0].map w.log.parent = [some 2, some 1, some 0, none]) ∧
      (w.held.find? (·.1 = 3)).isSome = true) (by decide)
  obtain ⟨⟨n, l⟩, hf⟩ := Option.isSome_iff_exists.1 h4
  have hn := List.find?_some hf
  simp only [decide_eq_true_eq] at hn
  subst hn
  obtain ⟨u, hu, hu1, hu2⟩ : ∃ u, w.seen[1]? = some u ∧ u.store.has 1 = true ∧ u.store.rollup? 1 = none := by
    have := congrArg (·[1]?) h2
    simp only [List.getElem?_take, List.getElem?_map] at this
    simpa using this
  have hr : ∀ a b, w.log.rolledUp a b → a = 1 ∧ b = 50 := by
    rintro a b ⟨p, hp⟩
    have : (a, b) ∈ w.log.filterMap rollupOf := List.mem_filterMap.2 ⟨_, hp, rfl⟩
    rw [h3.1] at this
    simpa using this
  simp only [List.map_cons, List.map_nil, List.cons.injEq, and_true] at h3
  obtain ⟨_, p3, p2, p1, p0⟩ := h3
  have line : ∀ m, w.log.Ancestor m 3 → m = 3 ∨ m = 2 ∨ m = 1 ∨ m = 0 := by
    intro m hm
    have root : ∀ m, w.log.Ancestor m 0 → m = 0 := by
      intro m hm
      cases hm with
      | self => rfl
      | up e _ => rw [p0] at e; cases e
    cases hm with
    | self => simp
    | up e hm =>
      rw [p3] at e; cases e
      cases hm with
      | self => simp
      | up e hm =>
        rw [p2] at e; cases e
        cases hm with
        | self => simp
        | up e hm =>
          rw [p1] at e; cases e
          simp [root m hm]
  refine ⟨w, fun t => if t = 0 then u else ⟨w.store, w.cache⟩, l, h1, List.mem_of_find?_eq_some hf,
    ⟨fun t => if t = 0 then 1 else 0, fun t => ?_, fun t => ?_⟩, hu1, hu2, ?_,
    ⟨2, p3, .up p2 (.self _)⟩, ?_, ?_⟩
  · simp
  · by_cases ht : t = 0
    · subst ht
      exact ⟨u, hu, rfl, fun _ _ h => h⟩
    · refine ⟨⟨w.store, w.cache⟩, ?_, ?_, ?_⟩ <;> simp [ht, World.seen]
  · have := congrArg (·[0]?) h2
    simp only [World.seen, List.map_cons] at this
    exact (show w.store.has 1 = true ∧ w.store.rollup? 1 = some 50 by simpa using this).2
  · intro m hm ⟨p, hp, ha⟩ r
    refine ⟨fun hh => ?_, fun hh => ?_⟩
    · obtain ⟨rfl, _⟩ := hr _ _ hh
      rw [p1] at hp
      cases hp
      cases ha with
      | up e _ => rw [p0] at e; cases e
    · obtain ⟨_, rfl⟩ := hr _ _ hh
      have := line _ hm
      omega
  · intro a b c h1 h2
    have := (hr _ _ h1).2
    have := (hr _ _ h2).1
    omega

/-- C24 fails in general: after a rollup down to 1, a rollup down to 0 loses triples. The
predicates get the wrong ids. -/
theorem C24_rollup_upto_wrong : ∃ (w : World Nat Nat) (l l' : InternalLayer Nat Nat),
    Run false w ∧ (3, l) ∈ w.held ∧ (3, l') ∈ w.held ∧
    Stack.valueTripleExists l.stack ⟨1, 20, .node 2⟩ = some true ∧
    Stack.valueTripleExists l'.stack ⟨1, 20, .node 2⟩ = some false := by
  obtain ⟨w, h1, h2⟩ := reaches_run (safe := false)
    (cs := four ++ [.rollupUpto 3 1 50, .load 3, .rollupUpto 3 0 51, .load 3])
    (P := fun w => reports w 3 ⟨1, 20, .node 2⟩ = [(3, some 2, [3, 0], some false),
      (3, some 2, [3, 1, 0], some true), (3, some 2, [3, 2, 1, 0], some true)]) (by decide)
  obtain ⟨l, a1, _, _, a2⟩ := mem_reports (w := w) (n := 3) (t := ⟨1, 20, .node 2⟩) (m := 3)
    (p := some 2) (ns := [3, 2, 1, 0]) (b := some true) (by rw [h2]; simp)
  obtain ⟨l', b1, _, _, b2⟩ := mem_reports (w := w) (n := 3) (t := ⟨1, 20, .node 2⟩) (m := 3)
    (p := some 2) (ns := [3, 0]) (b := some false) (by rw [h2]; simp)
  exact ⟨w, l, l', h1, a1, b1, a2, b2⟩

/-- C25 fails in general: if layer 2 was rolled up down to 0, an imprecise rollup of 3 down
to 1 loses what layer 2 added. -/
theorem C25_imprecise_rollup_upto_wrong : ∃ (w : World Nat Nat) (l l' : InternalLayer Nat Nat),
    Run false w ∧ (3, l) ∈ w.held ∧ (3, l') ∈ w.held ∧
    Stack.valueTripleExists l.stack ⟨1, 20, .node 2⟩ = some true ∧
    Stack.valueTripleExists l'.stack ⟨1, 20, .node 2⟩ = some false := by
  obtain ⟨w, h1, h2⟩ := reaches_run (safe := false)
    (cs := four ++ [.rollupUpto 2 0 50, .load 3, .impreciseRollupUpto 3 1 51, .load 3])
    (P := fun w => reports w 3 ⟨1, 20, .node 2⟩ = [(3, some 2, [3, 1, 0], some false),
      (3, some 2, [3, 2, 0], some true), (3, some 2, [3, 2, 1, 0], some true)]) (by decide)
  obtain ⟨l, a1, _, _, a2⟩ := mem_reports (w := w) (n := 3) (t := ⟨1, 20, .node 2⟩) (m := 3)
    (p := some 2) (ns := [3, 2, 1, 0]) (b := some true) (by rw [h2]; simp)
  obtain ⟨l', b1, _, _, b2⟩ := mem_reports (w := w) (n := 3) (t := ⟨1, 20, .node 2⟩) (m := 3)
    (p := some 2) (ns := [3, 1, 0]) (b := some false) (by rw [h2]; simp)
  exact ⟨w, l, l', h1, a1, b1, a2, b2⟩

/-- The results of the rollups of the layer returned last for `n`. -/
def uptoResult (w : World Nat Nat) (n upto : Name) : Option (Out Unit × Out Unit) :=
  (lookup n w.held).map fun l =>
    (performRollupUpto w.store w.cache l upto >>= fun _ => pure (),
     performImpreciseRollupUpto w.store w.cache l upto >>= fun _ => pure ())

/-- C24 and C25 fail in general: after a full rollup of a layer both rollups of it down to an
ancestor end with an error. -/
theorem C24_rollup_upto_after_rollup_fails : ∃ w : World Nat Nat, Run true w ∧
    uptoResult w 3 1 = some (.err, .err) :=
  reaches_run (cs := four ++ [.rollup 3 50, .load 3]) (by decide)

/-- C24 and C25 fail in general: after a rollup of a layer down to 0 both rollups of it down
to 1 panic. -/
theorem C24_rollup_upto_after_rollup_upto_panics : ∃ w : World Nat Nat, Run true w ∧
    uptoResult w 3 1 = some (.panic, .panic) :=
  reaches_run (cs := four ++ [.rollupUpto 3 0 50, .load 3]) (by decide)

/-! ### C26, C27: squashes -/

/-- What a squash of `l` left in the store `st'`: a layer `new` with that parent, that loads
under its name and has the value triples of `l`. A squash down to an ancestor is loaded with its
parent if no rollup was rolled up. -/
def Squashed (w : World K V) (l : InternalLayer K V) (new : Name) (parent : Option Name)
    (st' : Store K V) : Prop :=
  st'.layerParent new = .ok parent ∧
  ∀ c : Cache K V, (∀ n x, c n = some x → w.cache n = some x) →
    ∃ l' cs, st'.getLayer c new = .ok (some l', cs) ∧
      l'.name = new ∧ (parent = none ∨ w.log.noRollupOfRollup → l'.parentName = parent) ∧
      ∀ t, ∃ b, Stack.valueTripleExists l.stack t = some b ∧
        Stack.valueTripleExists l'.stack t = some b

theorem squashed_of_step {w w' : World K V} (h : Run true w') {q new : Name}
    {l : InternalLayer K V} (hl : (q, l) ∈ w.held)
    {e : Entry K V} (hs : w'.store = (new, e) :: w.store) (hc : w'.cache = w.cache)
    (hh : w'.held = w.held) (hr : e.rollup = none) (hcn : w.cache new = none) (hf : w.log.noRollupOfRollup → w'.log.noRollupOfRollup)
    (ht : ∀ t, w'.log.triples new t ↔ w'.log.triples l.name t) :
    Squashed w l new e.parent ((new, e) :: w.store) := by
  have hhas : w'.store.has new = true := by rw [hs]; simp [Store.has, get?]
  refine ⟨by simp [layerParent, get?], ?_⟩
  intro c hsub
  obtain ⟨l', cs, w'', s1, s2, s3, s4, s5⟩ := h.reload (c := c) (by rw [hc]; exact hsub) hhas
  rw [hs] at s1
  have hheld : (new, l') ∈ w''.held := by rw [s5]; exact List.mem_cons_self ..
  have hlw : (q, l) ∈ w''.held := by rw [s5, hh]; exact List.mem_cons_of_mem _ hl
  have hcn' : c new = none := by
    cases hx : c new with
    | none => rfl
    | some x => rw [hsub _ _ hx] at hcn; cases hcn
  obtain ⟨k1, k2⟩ := getLayer_plain hcn' (by simp [Store.rollup?, get?, hr]) s1
  refine ⟨l', cs, s1, k1, ?_, ?_⟩
  · rintro (hp | hflat)
    · rw [hp]
      exact k2 (by simp [Store.parent?, get?, hp])
    · obtain ⟨_, _, g⟩ := C31_get_layer_partial s2 hheld
      obtain ⟨_, g2⟩ := g (by rw [s4]; exact hf hflat)
      rw [g2, ← s2.shape.parent, s3, hs]
      simp [Store.parent?, get?]
  · intro t
    obtain ⟨b, b1, b2⟩ := s2.inv.exists_iff ((s2.inv.held _ hlw).1.stands s2.inv.ok) t
    obtain ⟨b', b3, b4⟩ := s2.inv.exists_iff (s2.inv.held _ hheld).2 t
    refine ⟨b, b1, ?_⟩
    rw [b3]
    congr 1
    rw [s4] at b2 b4
    exact Bool.eq_iff_iff.2 (b4.trans ((ht t).trans b2.symm))

theorem cache_new {w : World K V} (h : Run true w) {new : Name} (hn : w.store.get? new = none) :
    w.cache new = none := by
  cases hc : w.cache new with
  | none => rfl
  | some x =>
    obtain ⟨g1, g2⟩ := h.inv.cache _ _ hc
    obtain ⟨S, hS, _⟩ := g1.stands h.inv.ok
    obtain ⟨e', he'⟩ := hS.get
    rw [g2, hn] at he'
    cases he'

theorem flat_squash {h : History (VTriple K V)} {ev : Event (VTriple K V)}
    (he : ∀ a b p, ev ≠ .rollup a b p) (hf : h.noRollupOfRollup) :
    History.noRollupOfRollup (ev :: h) := by
  have : ∀ a b, History.rolledUp (ev :: h) a b → h.rolledUp a b := by
    rintro a b ⟨q, hq⟩
    rcases List.mem_cons.1 hq with hq | hq
    · exact absurd hq.symm (he _ _ _)
    · exact ⟨q, hq⟩
  exact fun a b c h1 h2 => hf a b c (this a b h1) (this b c h2)

/-- C26: squash succeeds and makes a layer without parent and with the same value triples.
That no other layer changes is C19. Missing: histories with a rollup down to an ancestor that
is not safe. -/
theorem C26_squash_partial {w : World K V} (h : Run true w) {q new : Name}
    {l : InternalLayer K V} (hl : (q, l) ∈ w.held) (hn : w.store.get? new = none) :
    ∃ pl, Store.squash l = .ok pl ∧
      Squashed w l new none (pl.apply new w.store).2 ∧ (pl.apply new w.store).1 = new := by
  obtain ⟨pl, hp⟩ := squash_total h.inv.ok (h.inv.held _ hl).1
  obtain ⟨e, rfl, he, hro, _⟩ := squash_plan h.inv.ok (h.inv.held _ hl).1 hp
  refine ⟨_, hp, ?_, rfl⟩
  have hne : l.name ≠ new := by
    obtain ⟨S, hS, _⟩ := (h.inv.held _ hl).1.stands h.inv.ok
    obtain ⟨e', he'⟩ := hS.get
    intro hEq
    rw [hEq, hn] at he'
    cases he'
  have := squashed_of_step
    (.step (.step h (.planSquash hl hp)) (.writeSquash (List.mem_cons_self ..) hn)) hl rfl rfl rfl
    hro.1 (cache_new h hn) (fun hf => flat_squash (by simp) hf) (by
      intro t
      simp only [History.triples, Event.new, if_true, hne, if_false])
  rw [he] at this
  exact this

example : ∃ w : World Nat Nat, Run true w ∧
    tells w 300 ⟨0, 9, .node 1⟩ [(300, none, [300], some true)] ∧
    tells w 300 ⟨2, 12, .node 4⟩ [(300, none, [300], some false)] :=
  reaches_run (cs := commits ++ [.rollup 102 200, .load 102, .squash 102 300, .load 300]) (by decide)

/-- C27: squash down to a strict ancestor succeeds and makes a layer with that parent and
with the same value triples. Missing: as for C26, and the reported parent after a rollup of a
rollup (`C27_parent_wrong`). -/
theorem C27_squash_upto_partial {w : World K V} (h : Run true w) {q upto new : Name}
    {l : InternalLayer K V} (hl : (q, l) ∈ w.held) (hn : w.store.get? new = none)
    (hu : ∃ p, w.log.parent l.name = some p ∧ w.log.Ancestor upto p) :
    ∃ pl, w.store.squashUpto l upto = .ok pl ∧
      Squashed w l new (some upto) (pl.apply new w.store).2 ∧ (pl.apply new w.store).1 = new := by
  obtain ⟨ns, _, hns, _⟩ := (h.shape.closed.stackNamesUpto h.shape.parent l.name upto).1 hu
  obtain ⟨pl, hp⟩ := squashUpto_total h.inv.ok (h.inv.held _ hl).1 hns
  obtain ⟨e, rfl, he, hro, _⟩ := squashUpto_plan h.inv.ok (h.inv.held _ hl).1 hp
  refine ⟨_, hp, ?_, rfl⟩
  have hne : l.name ≠ new := by
    obtain ⟨S, hS, _⟩ := (h.inv.held _ hl).1.stands h.inv.ok
    obtain ⟨e', he'⟩ := hS.get
    intro hEq
    rw [hEq, hn] at he'
    cases he'
  have := squashed_of_step
    (.step (.step h (.planSquashUpto hl hp)) (.writeSquashUpto (List.mem_cons_self ..) hn)) hl rfl
    rfl rfl hro.1 (cache_new h hn) (fun hf => flat_squash (by simp) hf) (by
      intro t
      simp only [History.triples, Event.new, if_true, hne, if_false])
  rw [he] at this
  exact this

example : ∃ w : World Nat Nat, Run true w ∧
    tells w 301 ⟨0, 9, .node 1⟩ [(301, some 100, [301, 100], some true)] ∧
    tells w 301 ⟨2, 12, .node 4⟩ [(301, some 100, [301, 100], some false)] :=
  reaches_run (cs := commits ++ [.squashUpto 102 100 301, .load 301]) (by decide)

/-- C27 while other tasks are running. The squash sees `v 0` when it begins to load `upto`, and later moments
in the other rounds. After enough rounds it decides, and whatever happens until it writes its layer, that
is right. Missing: as in `C27_squash_upto_partial`, and rollups of rollups. -/
theorem C27_squash_upto_concurrent_partial {w : World K V} (h : Run true w)
    (hf : w.log.noRollupOfRollup) {q upto : Name} {l : InternalLayer K V} (hl : (q, l) ∈ w.held)
    (hu : ∃ p, w.log.parent l.name = some p ∧ w.log.Ancestor upto p)
    {v : Nat → View K V} (hv : w.Sees v) (hm : (v 0).store.has upto = true) :
    ∃ pl, (∃ f0, ∀ f, f0 ≤ f → squashUptoView v f w.store l upto = .ok pl) ∧
      ∀ w', Later true { w with plans := (.squashUpto l.name upto, pl) :: w.plans, past := w.seen } w' →
        ∀ new, w'.store.get? new = none →
          Squashed w' l new (some upto) (pl.apply new w'.store).2 ∧ (pl.apply new w'.store).1 = new := by
  obtain ⟨ns, _, hns, _⟩ := (h.shape.closed.stackNamesUpto h.shape.parent l.name upto).1 hu
  obtain ⟨pl, hp⟩ := squashUpto_total h.inv.ok (h.inv.held _ hl).1 hns
  obtain ⟨f0, h4⟩ := decides_squashUpto h hf hv hm hp
  refine ⟨pl, ⟨f0, h4⟩, fun w' hw' new hn => ?_⟩
  obtain ⟨e, rfl, he, hro, _⟩ := squashUpto_plan h.inv.ok (h.inv.held _ hl).1 hp
  have h' := hw'.run (Run.step h (.decideSquashUpto hl hv (h4 f0 (Nat.le_refl _))))
  have hl' := hw'.held _ hl
  have hne : l.name ≠ new := by
    obtain ⟨S, hS, _⟩ := (h'.inv.held _ hl').1.stands h'.inv.ok
    obtain ⟨e', he'⟩ := hS.get
    intro hEq
    rw [hEq, hn] at he'
    cases he'
  refine ⟨?_, rfl⟩
  have := squashed_of_step
    (.step h' (.writeSquashUpto (hw'.plans _ (List.mem_cons_self ..)) hn)) hl' rfl
    rfl rfl hro.1 (cache_new h' hn) (fun hf => flat_squash (by simp) hf) (by
      intro t
      simp only [History.triples, Event.new, if_true, hne, if_false])
  rw [he] at this
  exact this

/-- C27 fails in general: after a rollup of a rollup of the ancestor the squash reports another
parent. -/
theorem C27_parent_wrong : ∃ (w : World Nat Nat) (l : InternalLayer Nat Nat), Run true w ∧
    (60, l) ∈ w.held ∧ w.log.parent 60 = some 2 ∧ l.name = 60 ∧ l.parentName = some 50 := by
  obtain ⟨w, h1, h2, h3⟩ := reaches_run (safe := true)
    (cs := four ++ [.rollupUpto 2 0 50, .load 50, .rollup 50 51, .dropAll, .load 3,
      .squashUpto 3 2 60, .load 60])
    (P := fun w => reports w 60 ⟨1, 10, .node 2⟩ = [(60, some 50, [60, 50], some true)] ∧
      w.log.parent 60 = some 2) (by decide)
  obtain ⟨l, a1, a2, a3, _⟩ := mem_reports (w := w) (n := 60) (t := ⟨1, 10, .node 2⟩) (m := 60)
    (p := some 50) (ns := [60, 50]) (b := some true) (by rw [h2]; simp)
  exact ⟨w, l, h1, a1, h3, a2, a3⟩

end World

end Verif
