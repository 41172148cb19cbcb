import Verif.Spec
import Verif.Props.Witness

/-!
C01, C02, C03, C15, C17, C18: what a commit does.
-/

set_option linter.unusedSectionVars false

namespace Verif

open SimpleBuilder Spec

variable {K V : Type} [LinearOrder K] [LinearOrder V]

/-- A value triple call on the builder. -/
def valueOp : Call (VTriple K V) → Op K V
  | .add t => .addValue t
  | .remove t => .removeValue t

/-- An id triple call on the builder. -/
def idOp : Call Triple → Op K V
  | .add t => .addId t
  | .remove t => .removeId t

theorem valueOp_known (S : List (LayerData K V)) (calls : List (Call (VTriple K V))) :
    ∀ op ∈ calls.map valueOp, IdsKnown S op := by
  intro op ho
  obtain ⟨c, _, rfl⟩ := List.mem_map.1 ho
  cases c <;> trivial

theorem toG_inj {t u : VTriple K V} (h : t.toG = u.toG) : t = u := by
  cases t; cases u
  simp only [VTriple.toG, GTriple.mk.injEq, Obj.node.injEq] at h
  obtain ⟨rfl, rfl, rfl⟩ := h
  rfl

theorem adds_valueOp (S : List (LayerData K V)) (calls : List (Call (VTriple K V)))
    (g : GTriple K V) : Adds S (calls.map valueOp) g ↔ ∃ t, added calls t ∧ g = t.toG := by
  unfold Adds added
  constructor
  · rintro ⟨op, ho, ha⟩
    obtain ⟨c, hc, rfl⟩ := List.mem_map.1 ho
    cases c with
    | add t => exact ⟨t, hc, ha⟩
    | remove t => exact absurd ha id
  · rintro ⟨t, ht, rfl⟩
    exact ⟨_, List.mem_map.2 ⟨_, ht, rfl⟩, rfl⟩

theorem removes_valueOp (S : List (LayerData K V)) (calls : List (Call (VTriple K V)))
    (g : GTriple K V) : Removes S (calls.map valueOp) g ↔ ∃ t, removed calls t ∧ g = t.toG := by
  unfold Removes removed
  constructor
  · rintro ⟨op, ho, ha⟩
    obtain ⟨c, hc, rfl⟩ := List.mem_map.1 ho
    cases c with
    | remove t => exact ⟨t, hc, ha⟩
    | add t => exact absurd ha id
  · rintro ⟨t, ht, rfl⟩
    exact ⟨_, List.mem_map.2 ⟨_, ht, rfl⟩, rfl⟩

theorem adds_toG (S : List (LayerData K V)) (calls : List (Call (VTriple K V)))
    (t : VTriple K V) : Adds S (calls.map valueOp) t.toG ↔ added calls t := by
  rw [adds_valueOp]
  constructor
  · rintro ⟨u, hu, he⟩; rw [toG_inj he]; exact hu
  · intro h; exact ⟨t, h, rfl⟩

theorem removes_toG (S : List (LayerData K V)) (calls : List (Call (VTriple K V)))
    (t : VTriple K V) : Removes S (calls.map valueOp) t.toG ↔ removed calls t := by
  rw [removes_valueOp]
  constructor
  · rintro ⟨u, hu, he⟩; rw [toG_inj he]; exact hu
  · intro h; exact ⟨t, h, rfl⟩

/-- C01. After any calls and a commit, a value triple exists in the new layer exactly
when the specification says so; the query does not panic. -/
theorem C01_commit_applies_changes {S : List (LayerData K V)} (hS : Reachable S)
    (calls : List (Call (VTriple K V))) {d : LayerData K V}
    (hd : Commits S (calls.map valueOp) d) (t : VTriple K V) :
    ∃ b, Stack.valueTripleExists (d :: S) t = some b ∧
      (b = true ↔ after (fun t => Stack.valueTripleExists S t = some true) calls t) := by
  obtain ⟨Ps, Ns, hok⟩ := hS.good
  obtain ⟨P, N, hc⟩ := commits_committed hok (valueOp_known S calls) hd
  obtain ⟨b, h1, h2⟩ := valueTripleExists_spec hc.ok t
  refine ⟨b, h1, ?_⟩
  rw [h2, hc.content hok, adds_toG, removes_toG]
  simp only [after, valueTripleExists_iff hok]
  tauto

example : ∃ (S : List (LayerData Nat Nat)) (calls : List (Call (VTriple Nat Nat)))
    (d : LayerData Nat Nat), Reachable S ∧ S ≠ [] ∧ Commits S (calls.map valueOp) d ∧
      Stack.valueTripleExists (d :: S) ⟨1, 10, .value 7⟩ = some false ∧
      Stack.valueTripleExists S ⟨1, 10, .value 7⟩ = some true ∧
      Stack.valueTripleExists (d :: S) ⟨2, 12, .node 4⟩ = some true :=
  ⟨[Witness.base], [.remove ⟨1, 10, .value 7⟩, .add ⟨2, 12, .node 4⟩, .add ⟨1, 11, .value 8⟩],
    Witness.child, Witness.base_reachable, by simp, Witness.child_commits, by decide, by decide,
    by decide⟩

/-- C02. Histories that ask for the same additions and removals commit to the same
layer: dictionaries, ids and triple structures are equal, whatever the order of the
calls and of the hash maps. -/
theorem C02_order_independent {S : List (LayerData K V)} (hS : Reachable S)
    {calls calls' : List (Call (VTriple K V))} (hsame : sameRequests calls calls')
    {d d' : LayerData K V} (hd : Commits S (calls.map valueOp) d)
    (hd' : Commits S (calls'.map valueOp) d') : d = d' := by
  obtain ⟨Ps, Ns, hok⟩ := hS.good
  obtain ⟨P, N, hc⟩ := commits_committed hok (valueOp_known S calls) hd
  obtain ⟨P', N', hc'⟩ := commits_committed hok (valueOp_known S calls') hd'
  have ha : ∀ g, Adds S (calls.map valueOp) g ↔ Adds S (calls'.map valueOp) g := by
    intro g
    rw [adds_valueOp, adds_valueOp]
    simp only [hsame.1]
  have hr : ∀ g, Removes S (calls.map valueOp) g ↔ Removes S (calls'.map valueOp) g := by
    intro g
    rw [removes_valueOp, removes_valueOp]
    simp only [hsame.2]
  exact hc.unique hc' (fun g => by rw [ha, hr]) (fun g => by rw [ha, hr])

/-- The calls of the witness in another order, one of them twice. -/
example : sameRequests
    [Call.remove (⟨1, 10, .value 7⟩ : VTriple Nat Nat), .add ⟨2, 12, .node 4⟩, .add ⟨1, 11, .value 8⟩]
    [.add ⟨1, 11, .value 8⟩, .add ⟨2, 12, .node 4⟩, .remove ⟨1, 10, .value 7⟩, .add ⟨1, 11, .value 8⟩] := by
  constructor
  · intro t; simp [added]; tauto
  · intro t; simp [removed]

/-- The calls that mention other triples than `t`. -/
def others [DecidableEq K] [DecidableEq V] (t : VTriple K V) :
    List (Call (VTriple K V)) → List (Call (VTriple K V)) :=
  List.filter (fun c => match c with | .add u => decide (u ≠ t) | .remove u => decide (u ≠ t))

/-- C03. A triple that is both added and removed exists afterwards iff it did before,
is in neither the additions nor the removals of the new layer, and leaving out all
calls that mention it gives the same layer, dictionaries included. -/
theorem C03_add_remove_noop {S : List (LayerData K V)} (hS : Reachable S)
    {calls : List (Call (VTriple K V))} {t : VTriple K V} (hadd : added calls t)
    (hrem : removed calls t) {d : LayerData K V} (hd : Commits S (calls.map valueOp) d) :
    (Stack.valueTripleExists (d :: S) t = Stack.valueTripleExists S t) ∧
    (∀ u, Stack.valueTripleToId (d :: S) t = some (some u) →
      d.pos.contains u = some false ∧ Stack.removalExists d u = some false) ∧
    (∀ d', Commits S ((others t calls).map valueOp) d' → d' = d) := by
  obtain ⟨Ps, Ns, hok⟩ := hS.good
  obtain ⟨P, N, hc⟩ := commits_committed hok (valueOp_known S calls) hd
  have hA := (adds_toG S calls t).2 hadd
  have hR := (removes_toG S calls t).2 hrem
  refine ⟨?_, ?_, ?_⟩
  · obtain ⟨b, h1, h2⟩ := valueTripleExists_spec hc.ok t
    obtain ⟨b', h1', h2'⟩ := valueTripleExists_spec hok t
    rw [h1, h1']
    rw [hc.content hok] at h2
    have : b = true ↔ b' = true := by rw [h2, h2']; tauto
    cases b <;> cases b' <;> simp_all
  · intro u hu
    obtain ⟨r, e1, e2⟩ := valueTripleToId_spec hc.ok t
    rw [hu] at e1
    simp only [Option.some.injEq] at e1
    have hres := (e2 u).1 e1.symm
    have hst : Stored d.pos P ∧ NegStored d.neg N := by
      cases hc.ok.rep with
      | cons g1 g2 _ => exact ⟨g1, g2⟩
    rw [hst.1.contains u, hst.2.contains u]
    constructor
    · congr 1
      rw [decide_eq_false_iff_not]
      intro hm
      obtain ⟨g, _, hR', hres', _⟩ := (hc.pos u).1 hm
      rw [← Res.inj hc.ok hres hres'] at hR'
      exact hR' hR
    · congr 1
      rw [decide_eq_false_iff_not]
      intro hm
      obtain ⟨g, _, hA', hres', _⟩ := (hc.neg u).1 hm
      rw [← Res.inj hc.ok hres (Res.up hok hc.ok hres')] at hA'
      exact hA' hA
  · intro d' hd'
    obtain ⟨P', N', hc'⟩ := commits_committed hok (valueOp_known S _) hd'
    have ha : ∀ u, added (others t calls) u ↔ added calls u ∧ u ≠ t := by
      intro u; simp [added, others]
    have hr : ∀ u, removed (others t calls) u ↔ removed calls u ∧ u ≠ t := by
      intro u; simp [removed, others]
    have key : ∀ (g : GTriple K V) (Q : VTriple K V → Prop),
        (∃ u, (Q u ∧ u ≠ t) ∧ g = u.toG) ↔ (∃ u, Q u ∧ g = u.toG) ∧ g ≠ t.toG := by
      intro g Q
      constructor
      · rintro ⟨u, ⟨h1, h2⟩, rfl⟩
        exact ⟨⟨u, h1, rfl⟩, fun h => h2 (toG_inj h)⟩
      · rintro ⟨⟨u, h1, rfl⟩, h2⟩
        exact ⟨u, ⟨h1, fun h => h2 (by rw [h])⟩, rfl⟩
    have hA' : ∀ g, Adds S ((others t calls).map valueOp) g ↔
        Adds S (calls.map valueOp) g ∧ g ≠ t.toG := by
      intro g
      rw [adds_valueOp, adds_valueOp]
      simp only [ha, key]
    have hR' : ∀ g, Removes S ((others t calls).map valueOp) g ↔
        Removes S (calls.map valueOp) g ∧ g ≠ t.toG := by
      intro g
      rw [removes_valueOp, removes_valueOp]
      simp only [hr, key]
    refine hc'.unique hc ?_ ?_
    · intro g
      rw [hA', hR']
      constructor
      · rintro ⟨⟨h1, h2⟩, h3⟩
        exact ⟨h1, fun h => h3 ⟨h, h2⟩⟩
      · rintro ⟨h1, h2⟩
        exact ⟨⟨h1, fun h => h2 (h ▸ hR)⟩, fun h => h2 h.1⟩
    · intro g
      rw [hA', hR']
      constructor
      · rintro ⟨⟨h1, h2⟩, h3⟩
        exact ⟨h1, fun h => h3 ⟨h, h2⟩⟩
      · rintro ⟨h1, h2⟩
        exact ⟨⟨h1, fun h => h2 (h ▸ hA)⟩, fun h => h2 h.1⟩

/-- A history that adds and removes a triple with a new string, on a non-empty parent. -/
example : ∃ (S : List (LayerData Nat Nat)) (calls : List (Call (VTriple Nat Nat)))
    (t : VTriple Nat Nat) (d : LayerData Nat Nat), Reachable S ∧ S ≠ [] ∧ added calls t ∧
      removed calls t ∧ Commits S (calls.map valueOp) d ∧ d.nodes = [] :=
  ⟨[Witness.base], [.add ⟨9, 10, .node 2⟩, .remove ⟨9, 10, .node 2⟩], ⟨9, 10, .node 2⟩, _,
    Witness.base_reachable, by simp, by simp [added], by simp [removed],
    Witness.commits_of_eval (d := ⟨[], [], [], none, none, 4, 2,
      ⟨some [], some [], ⟨[], []⟩, ⟨[], []⟩, ⟨[], []⟩, []⟩,
      some ⟨some [], some [], ⟨[], []⟩, ⟨[], []⟩, ⟨[], []⟩, []⟩⟩) (by decide), rfl⟩

/-- C15. The dictionaries of a committed layer are strictly sorted and hold exactly the
strings and values that are unknown to the parent and used by a triple that was added
and not also removed; nothing in them occurs in a dictionary below. -/
theorem C15_dictionaries_exact {S : List (LayerData K V)} (hS : Reachable S)
    {calls : List (Call (VTriple K V))} {d : LayerData K V}
    (hd : Commits S (calls.map valueOp) d) :
    SortedLt d.nodes ∧ SortedLt d.preds ∧ SortedLt d.values ∧
    (∀ k, k ∈ d.nodes ↔ (∀ e ∈ S, k ∉ e.nodes) ∧
      ∃ t, added calls t ∧ ¬ removed calls t ∧ (t.s = k ∨ t.o = .node k)) ∧
    (∀ v, v ∈ d.values ↔ (∀ e ∈ S, v ∉ e.values) ∧
      ∃ t, added calls t ∧ ¬ removed calls t ∧ t.o = .value v) ∧
    (∀ p, p ∈ d.preds ↔ (∀ e ∈ S, p ∉ e.preds) ∧
      ∃ t, added calls t ∧ ¬ removed calls t ∧ t.p = p) := by
  obtain ⟨Ps, Ns, hok⟩ := hS.good
  obtain ⟨P, N, hc⟩ := commits_committed hok (valueOp_known S calls) hd
  have hs := hc.ok.sorted d (by simp)
  have noneNode : ∀ k, Stack.objectId S (.node k) = some none ↔ ∀ e ∈ S, k ∉ e.nodes := by
    intro k
    refine ⟨objectId_none_node hok, ?_⟩
    intro h
    rw [objectId_eq hok.counts]
    rcases lvId_total hok.nv (.node k) with ⟨i, _, _, _, e, he, hm⟩ | ⟨q, _⟩
    · obtain ⟨e', he', rfl⟩ := List.mem_map.1 he
      simp only [LayerData.objs, List.mem_append, List.mem_map, Obj.node.injEq, exists_eq_right,
        reduceCtorEq, and_false, exists_false, or_false] at hm
      exact absurd hm (h e' he')
    · exact q
  have noneValue : ∀ k, Stack.objectId S (.value k) = some none ↔ ∀ e ∈ S, k ∉ e.values := by
    intro k
    refine ⟨objectId_none_value hok, ?_⟩
    intro h
    rw [objectId_eq hok.counts]
    rcases lvId_total hok.nv (.value k) with ⟨i, _, _, _, e, he, hm⟩ | ⟨q, _⟩
    · obtain ⟨e', he', rfl⟩ := List.mem_map.1 he
      simp only [LayerData.objs, List.mem_append, List.mem_map, Obj.value.injEq, exists_eq_right,
        reduceCtorEq, and_false, exists_false, false_or] at hm
      exact absurd hm (h e' he')
    · exact q
  have nonePred : ∀ k, Stack.predId S k = some none ↔ ∀ e ∈ S, k ∉ e.preds := by
    intro k
    refine ⟨predId_none hok, ?_⟩
    intro h
    rw [predId_eq hok.counts]
    rcases lvId_total hok.pr k with ⟨i, _, _, _, e, he, hm⟩ | ⟨q, _⟩
    · obtain ⟨e', he', rfl⟩ := List.mem_map.1 he
      exact absurd hm (h e' he')
    · exact q
  refine ⟨hs.1, hs.2.1, hs.2.2, ?_, ?_, ?_⟩
  · intro k
    rw [hc.nodes]
    unfold NewNV
    rw [noneNode]
    refine and_congr Iff.rfl ?_
    constructor
    · rintro ⟨g, hA, hR, hg⟩
      obtain ⟨t, ht, rfl⟩ := (adds_valueOp S calls g).1 hA
      rw [removes_toG] at hR
      refine ⟨t, ht, hR, ?_⟩
      rcases hg with hg | hg
      · simp only [VTriple.toG, Obj.node.injEq] at hg; exact Or.inl hg
      · exact Or.inr hg
    · rintro ⟨t, ht, hR, hg⟩
      refine ⟨t.toG, (adds_toG _ _ _).2 ht, fun h => hR ((removes_toG _ _ _).1 h), ?_⟩
      rcases hg with rfl | hg
      · exact Or.inl rfl
      · exact Or.inr hg
  · intro v
    rw [hc.values]
    unfold NewNV
    rw [noneValue]
    refine and_congr Iff.rfl ?_
    constructor
    · rintro ⟨g, hA, hR, hg⟩
      obtain ⟨t, ht, rfl⟩ := (adds_valueOp S calls g).1 hA
      rw [removes_toG] at hR
      refine ⟨t, ht, hR, ?_⟩
      rcases hg with hg | hg
      · simp [VTriple.toG] at hg
      · exact hg
    · rintro ⟨t, ht, hR, hg⟩
      exact ⟨t.toG, (adds_toG _ _ _).2 ht, fun h => hR ((removes_toG _ _ _).1 h), Or.inr hg⟩
  · intro p
    rw [hc.preds]
    unfold NewP
    rw [nonePred]
    refine and_congr Iff.rfl ?_
    constructor
    · rintro ⟨g, hA, hR, hg⟩
      obtain ⟨t, ht, rfl⟩ := (adds_valueOp S calls g).1 hA
      rw [removes_toG] at hR
      exact ⟨t, ht, hR, hg⟩
    · rintro ⟨t, ht, hR, hg⟩
      exact ⟨t.toG, (adds_toG _ _ _).2 ht, fun h => hR ((removes_toG _ _ _).1 h), hg⟩

/-- C15, the other half: no entry has two ids anywhere in a stack. -/
theorem C15_one_id_per_entry {S : List (LayerData K V)} (hS : Reachable S) {i j : Nat} :
    (∀ o, Stack.idObject S i = some (some o) → Stack.idObject S j = some (some o) → i = j) ∧
    (∀ p, Stack.idPredicate S i = some (some p) → Stack.idPredicate S j = some (some p) → i = j) := by
  obtain ⟨Ps, Ns, hok⟩ := hS.good
  constructor
  · intro o h1 h2
    obtain ⟨r, e1, e2⟩ := idObject_spec hok i
    obtain ⟨r', e1', e2'⟩ := idObject_spec hok j
    rw [h1] at e1; rw [h2] at e1'
    simp only [Option.some.injEq] at e1 e1'
    have a := (e2 o).1 e1.symm
    have b := (e2' o).1 e1'.symm
    rw [a] at b
    simpa using b
  · intro o h1 h2
    obtain ⟨r, e1, e2⟩ := idPredicate_spec hok i
    obtain ⟨r', e1', e2'⟩ := idPredicate_spec hok j
    rw [h1] at e1; rw [h2] at e1'
    simp only [Option.some.injEq] at e1 e1'
    have a := (e2 o).1 e1.symm
    have b := (e2' o).1 e1'.symm
    rw [a] at b
    simpa using b

example : ∃ (S : List (LayerData Nat Nat)) (i : Nat) (o : Obj Nat Nat), Reachable S ∧
    Stack.idObject S i = some (some o) ∧ 4 < i :=
  ⟨_, 6, .value 8, Witness.child_reachable, by decide, by decide⟩

/-- C17. Every sequence of value triple calls runs and commits without hitting any of
the panics of the builders, whatever the iteration order of the hash maps. -/
theorem C17_commit_never_panics {S : List (LayerData K V)} (hS : Reachable S)
    (calls : List (Call (VTriple K V))) :
    ∃ b, (SimpleBuilder.new S).run (calls.map valueOp) = some b ∧
      ∀ nv pm, nv.Perm b.nvMap → pm.Perm b.pMap → ∃ d, b.commitWith nv pm = some d := by
  obtain ⟨Ps, Ns, hok⟩ := hS.good
  obtain ⟨b, h1, h2⟩ := commits_exist hok (valueOp_known S calls)
  refine ⟨b, h1, ?_⟩
  intro nv pm hnv hpm
  obtain ⟨d, _, _, h, _⟩ := h2.commit hok hnv hpm
  exact ⟨d, h⟩

example : Reachable [Witness.child, Witness.base] := Witness.child_reachable

/-- An id call replaced by the value call on the strings its ids stand for. -/
inductive SameCall (S : List (LayerData K V)) : Op K V → Op K V → Prop
  | refl (op) : SameCall S op op
  | add {u t} : Stack.idTripleToString S u = some (some t) → SameCall S (.addId u) (.addValue t)
  | remove {u t} : Stack.idTripleToString S u = some (some t) →
      SameCall S (.removeId u) (.removeValue t)

/-- C18 for ids of the parent: replacing id calls by value calls on the same strings
gives the same layer. The full property also covers ids the parent does not know;
there the code panics or cancels other triples, see `C18_unknown_id_panics` and
`C18_unknown_id_cancels`. -/
theorem C18_id_calls_like_value_calls_partial {S : List (LayerData K V)} (hS : Reachable S)
    {ops ops' : List (Op K V)} (hk : ∀ op ∈ ops, IdsKnown S op)
    (hsame : List.Forall₂ (SameCall S) ops ops') {d d' : LayerData K V}
    (hd : Commits S ops d) (hd' : Commits S ops' d') : d = d' := by
  obtain ⟨Ps, Ns, hok⟩ := hS.good
  have hres : ∀ {u : Triple} {t : VTriple K V}, Stack.idTripleToString S u = some (some t) →
      ∀ g, Res S g u ↔ g = t.toG := by
    intro u t h g
    obtain ⟨r, e1, e2⟩ := idTripleToString_spec hok u
    rw [h] at e1
    simp only [Option.some.injEq] at e1
    have ht := (e2 t).1 e1.symm
    constructor
    · intro hg; exact Res.inj hok hg ht
    · rintro rfl; exact ht
  have hk' : ∀ op ∈ ops', IdsKnown S op := by
    intro op ho
    obtain ⟨op0, h0, hr⟩ := (forall₂_mem hsame).2 op ho
    cases hr with
    | refl => exact hk _ h0
    | add _ => trivial
    | remove _ => trivial
  obtain ⟨P, N, hc⟩ := commits_committed hok hk hd
  obtain ⟨P', N', hc'⟩ := commits_committed hok hk' hd'
  have ha : ∀ g, Adds S ops g ↔ Adds S ops' g := by
    intro g
    constructor
    · rintro ⟨op, ho, h⟩
      obtain ⟨op', ho', hr⟩ := (forall₂_mem hsame).1 op ho
      refine ⟨op', ho', ?_⟩
      cases hr with
      | refl => exact h
      | add e => exact (hres e g).1 h
      | remove e => exact h
    · rintro ⟨op', ho', h⟩
      obtain ⟨op, ho, hr⟩ := (forall₂_mem hsame).2 op' ho'
      refine ⟨op, ho, ?_⟩
      cases hr with
      | refl => exact h
      | add e => exact (hres e g).2 h
      | remove e => exact h
  have hrm : ∀ g, Removes S ops g ↔ Removes S ops' g := by
    intro g
    constructor
    · rintro ⟨op, ho, h⟩
      obtain ⟨op', ho', hr⟩ := (forall₂_mem hsame).1 op ho
      refine ⟨op', ho', ?_⟩
      cases hr with
      | refl => exact h
      | remove e => exact (hres e g).1 h
      | add e => exact h
    · rintro ⟨op', ho', h⟩
      obtain ⟨op, ho, hr⟩ := (forall₂_mem hsame).2 op' ho'
      refine ⟨op, ho, ?_⟩
      cases hr with
      | refl => exact h
      | remove e => exact (hres e g).2 h
      | add e => exact h
  exact hc.unique hc' (fun g => by rw [ha, hrm]) (fun g => by rw [ha, hrm])

example : ∃ (u : Triple) (t : VTriple Nat Nat), IdsKnown [Witness.base] (Op.addId u : Op Nat Nat) ∧
    SameCall [Witness.base] (.addId u) (.addValue t) :=
  ⟨⟨3, 1, 4⟩, ⟨3, 10, .value 7⟩, by simp [IdsKnown, Stack.nvCount, Stack.pCount, Witness.base],
    .add (by decide)⟩

/-- C18 for ids of the parent, at the level of ids: also id triples whose subject is a
value. No new dictionary entries appear. -/
theorem C18_id_calls_apply_partial {S : List (LayerData K V)} (hS : Reachable S)
    {calls : List (Call Triple)}
    (hk : ∀ op ∈ (calls.map idOp : List (Op K V)), IdsKnown S op) {d : LayerData K V}
    (hd : Commits S (calls.map idOp) d) :
    d.nodes = [] ∧ d.preds = [] ∧ d.values = [] ∧
    ∀ u, u.Nonzero → (Stack.tripleExists (d :: S) u = some true ↔
      after (fun t => Stack.tripleExists S t = some true) calls u) := by
  obtain ⟨Ps, Ns, hok⟩ := hS.good
  obtain ⟨P, N, hc⟩ := commits_committed hok hk hd
  have hA : ∀ g, Adds S (calls.map idOp) g ↔ ∃ u, added calls u ∧ Res S g u := by
    intro g
    constructor
    · rintro ⟨op, ho, h⟩
      obtain ⟨c, hcm, rfl⟩ := List.mem_map.1 ho
      cases c with
      | add u => exact ⟨u, hcm, h⟩
      | remove u => exact absurd h id
    · rintro ⟨u, hu, h⟩
      exact ⟨_, List.mem_map.2 ⟨_, hu, rfl⟩, h⟩
  have hR : ∀ g, Removes S (calls.map idOp) g ↔ ∃ u, removed calls u ∧ Res S g u := by
    intro g
    constructor
    · rintro ⟨op, ho, h⟩
      obtain ⟨c, hcm, rfl⟩ := List.mem_map.1 ho
      cases c with
      | remove u => exact ⟨u, hcm, h⟩
      | add u => exact absurd h id
    · rintro ⟨u, hu, h⟩
      exact ⟨_, List.mem_map.2 ⟨_, hu, rfl⟩, h⟩
  have hnoNV : ∀ o, ¬ NewNV S (Adds S (calls.map idOp)) (Removes S (calls.map idOp)) o := by
    rintro o ⟨h1, g, hg, _, ho⟩
    obtain ⟨u, _, hr⟩ := (hA g).1 hg
    rcases ho with rfl | rfl
    · rw [hr.1] at h1; simp at h1
    · rw [hr.2.2] at h1; simp at h1
  have hnoP : ∀ o, ¬ NewP S (Adds S (calls.map idOp)) (Removes S (calls.map idOp)) o := by
    rintro o ⟨h1, g, hg, _, rfl⟩
    obtain ⟨u, _, hr⟩ := (hA g).1 hg
    rw [hr.2.1] at h1; simp at h1
  have hn : d.nodes = [] := List.eq_nil_iff_forall_not_mem.2 fun k hk => hnoNV _ ((hc.nodes k).1 hk)
  have hv : d.values = [] :=
    List.eq_nil_iff_forall_not_mem.2 fun k hk => hnoNV _ ((hc.values k).1 hk)
  have hp : d.preds = [] := List.eq_nil_iff_forall_not_mem.2 fun k hk => hnoP _ ((hc.preds k).1 hk)
  refine ⟨hn, hp, hv, ?_⟩
  intro u hz
  have hcn : Stack.nvCount (d :: S) = Stack.nvCount S := by
    have := hc.ok.counts.1
    simp only [Stack.nvCount] at this ⊢
    rw [hn, hv]; simpa using this
  have hcp : Stack.pCount (d :: S) = Stack.pCount S := by
    have := hc.ok.counts.2.1
    simp only [Stack.pCount] at this ⊢
    rw [hp]; simpa using this
  have hknown : ∀ u, (added calls u ∨ removed calls u) →
      u.s ≤ Stack.nvCount S ∧ u.p ≤ Stack.pCount S ∧ u.o ≤ Stack.nvCount S := by
    rintro u (h | h)
    · exact hk (.addId u) (List.mem_map.2 ⟨_, h, rfl⟩)
    · exact hk (.removeId u) (List.mem_map.2 ⟨_, h, rfl⟩)
  by_cases hr : u.s ≤ Stack.nvCount S ∧ u.p ≤ Stack.pCount S ∧ u.o ≤ Stack.nvCount S
  · obtain ⟨g, hg⟩ := Res.exists hok hz hr.1 hr.2.1 hr.2.2
    have hg' := Res.up hok hc.ok hg
    have e1 : Stack.tripleExists (d :: S) u = some true ↔ content (d :: S) g := by
      unfold content
      constructor
      · intro h; exact ⟨u, hg', h⟩
      · rintro ⟨u', h1, h2⟩; rw [Res.unique hg' h1]; exact h2
    have e2 : Stack.tripleExists S u = some true ↔ content S g := by
      unfold content
      constructor
      · intro h; exact ⟨u, hg, h⟩
      · rintro ⟨u', h1, h2⟩; rw [Res.unique hg h1]; exact h2
    have e3 : Adds S (calls.map idOp) g ↔ added calls u := by
      rw [hA]
      constructor
      · rintro ⟨u', h1, h2⟩; rw [Res.unique hg h2]; exact h1
      · intro h; exact ⟨u, h, hg⟩
    have e4 : Removes S (calls.map idOp) g ↔ removed calls u := by
      rw [hR]
      constructor
      · rintro ⟨u', h1, h2⟩; rw [Res.unique hg h2]; exact h1
      · intro h; exact ⟨u, h, hg⟩
    rw [e1, hc.content hok, e3, e4]
    simp only [after, e2]
    tauto
  · have hno : ∀ {S' : List (LayerData K V)} {Ps' Ns'}, StackOk S' Ps' Ns' →
        Stack.nvCount S' = Stack.nvCount S → Stack.pCount S' = Stack.pCount S →
        ¬ Stack.tripleExists S' u = some true := by
      intro S' Ps' Ns' hS' h1 h2 h
      have := hS'.present_range ((hS'.exists_iff u).1 h)
      rw [h1, h2] at this
      exact hr this
    have h1 := hno hc.ok hcn hcp
    have h2 := hno hok rfl rfl
    have h3 : ¬ added calls u := fun h => hr (hknown u (Or.inl h))
    have h4 : ¬ removed calls u := fun h => hr (hknown u (Or.inr h))
    unfold after
    simp [h1, h2, h3, h4]

example : ∀ op ∈ ([Call.remove ⟨1, 1, 4⟩, .add ⟨3, 2, 2⟩].map idOp : List (Op Nat Nat)),
    IdsKnown [Witness.base] op := by
  simp [idOp, IdsKnown, Stack.nvCount, Stack.pCount, Witness.base]

/-- C18 fails for ids the parent does not know: committing an addition of the id triple
(9, 1, 2) on a layer with four nodes and values panics. -/
theorem C18_unknown_id_panics :
    Reachable [Witness.base] ∧
    ((SimpleBuilder.new [Witness.base]).run [.addId ⟨9, 1, 2⟩]).bind (·.commit) = none :=
  ⟨Witness.base_reachable, by decide⟩

/-- C18 fails for ids the parent does not know: removing the id triple (5, 1, 2), which
names no triple of the parent, cancels the addition of a value triple that happens to
get the temporary id 5. -/
theorem C18_unknown_id_cancels :
    ∃ d, Commits [Witness.base] [.addValue ⟨9, 10, .node 2⟩, .removeId ⟨5, 1, 2⟩] d ∧
      Stack.tripleExists [Witness.base] ⟨5, 1, 2⟩ = some false ∧
      Stack.valueTripleExists [d, Witness.base] ⟨9, 10, .node 2⟩ = some false :=
  ⟨⟨[], [], [], none, none, 4, 2, ⟨some [], some [], ⟨[], []⟩, ⟨[], []⟩, ⟨[], []⟩, []⟩,
      some ⟨some [], some [], ⟨[], []⟩, ⟨[], []⟩, ⟨[], []⟩, []⟩⟩,
    Witness.commits_of_eval (by decide), by decide, by decide⟩

end Verif
