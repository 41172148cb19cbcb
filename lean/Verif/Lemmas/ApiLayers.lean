import Verif.Lemmas.ApiGraphs
import Verif.Props.Getters

/-!
The calls that take layers in hand and ask about them are as specified (`Verif.Api.Step`).
-/

namespace Verif.Api

open Spec SimpleBuilder Store World Session

variable {K V L : Type}

namespace Ids

variable {i j : Ids K V} {A B : VTriple K V → Prop}

theorem code_fun {t t' : VTriple K V} {u : Triple} (h : i.code t u) (h' : i.code t' u) : t = t' := by
  obtain ⟨h1, h2, h3⟩ := h
  obtain ⟨k1, k2, k3⟩ := h'
  rw [h1] at k1; rw [h2] at k2; rw [h3] at k3
  cases t; cases t'
  simp only [Option.some.injEq, Obj.node.injEq] at k1 k2 k3
  simp only [VTriple.mk.injEq]
  exact ⟨k1, k2, k3⟩

theorem Fits.code_inj (h : i.Fits j A) {t : VTriple K V} {u u' : Triple} (hu : i.code t u)
    (hu' : i.code t u') : u = u' := by
  obtain ⟨h1, h2, h3⟩ := hu
  obtain ⟨k1, k2, k3⟩ := hu'
  cases u; cases u'
  simp only [Triple.mk.injEq]
  exact ⟨h.nvOnce _ _ _ h1 k1, h.predOnce _ _ _ h2 k2, h.nvOnce _ _ _ h3 k3⟩

theorem Fits.code_kept (h : i.Fits j A) {t : VTriple K V} {u : Triple} (hu : j.code t u) :
    i.code t u :=
  ⟨h.nvKept _ _ hu.1, h.predKept _ _ hu.2.1, h.nvKept _ _ hu.2.2⟩

/-- The id triples that only the layer above has. -/
theorem Fits.added (h : i.Fits j A) (hB : ∀ t, B t → ∃ u, j.code t u) (u : Triple) :
    i.ofSet (fun t => A t ∧ ¬ B t) u ↔ i.ofSet A u ∧ ¬ j.ofSet B u := by
  constructor
  · rintro ⟨t, ⟨h1, h2⟩, h3⟩
    refine ⟨⟨t, h1, h3⟩, ?_⟩
    rintro ⟨t', k1, k2⟩
    rw [code_fun h3 (h.code_kept k2)] at h2
    exact h2 k1
  · rintro ⟨⟨t, h1, h2⟩, h3⟩
    refine ⟨t, ⟨h1, ?_⟩, h2⟩
    intro hb
    obtain ⟨u', hu'⟩ := hB t hb
    have := h.code_inj h2 (h.code_kept hu')
    subst this
    exact h3 ⟨t, hb, hu'⟩

/-- The id triples that only the layer below has. -/
theorem Fits.removed (h : i.Fits j A) (hB : ∀ t, B t → ∃ u, j.code t u) (u : Triple) :
    i.ofSet (fun t => B t ∧ ¬ A t) u ↔ j.ofSet B u ∧ ¬ i.ofSet A u := by
  constructor
  · rintro ⟨t, ⟨h1, h2⟩, h3⟩
    obtain ⟨u', hu'⟩ := hB t h1
    have := h.code_inj h3 (h.code_kept hu')
    subst this
    refine ⟨⟨t, h1, hu'⟩, ?_⟩
    rintro ⟨t', k1, k2⟩
    rw [code_fun h3 k2] at h2
    exact h2 k1
  · rintro ⟨⟨t, h1, h2⟩, h3⟩
    exact ⟨t, ⟨h1, fun ha => h3 ⟨t, ha, h.code_kept h2⟩⟩, h.code_kept h2⟩

end Ids

variable [LinearOrder K] [LinearOrder V] [DecidableEq L]
  {s : Session K V L} {w : World K V} {a : State K V L} {ch : Choice K V L}

theorem Sim.loadGive (h : Sim s w a) {n : Nat} (hn : a.log.known n) (m : Ans K V L)
    {c : Req K V L} (hc : Step a c (.layer a.handles.length) (a.hold n)) :
    Simulates a c (s.loading n m give) := by
  obtain ⟨x, w', h1, h2, _, _, h3⟩ := h.load hn m
  rw [h1]
  refine ⟨w', _, ?_, h2.hold hn (by rw [h3]; exact List.mem_cons_self ..)⟩
  show Step a c (.layer s.layers.length) _
  rw [h.handlesLength]
  exact hc

theorem Sim.getLayer (h : Sim s w a) {n : Nat} (hn : a.Askable n) :
    Simulates a (.getLayer n) (s.perform ch (.getLayer n)) := by
  show Simulates a _ (s.loading n .absent give)
  by_cases hk : a.log.known n
  · exact h.loadGive hk _ (.getLayer hk)
  · rw [h.loadAbsent hk hn.1]
    exact ⟨w, a, .getLayerAbsent hk, h⟩

theorem Sim.parent (h : Sim s w a) {i : Nat} (hi : a.Held i) :
    Simulates a (.parent i) (s.perform ch (.parent i)) := by
  obtain ⟨n, hi⟩ := hi
  obtain ⟨x, hx, hn, hxh⟩ := h.handle hi
  obtain ⟨_, hxp⟩ := h.layers.named hn hxh
  simp only [perform]
  rw [h.withLayer hx, hxp]
  cases hp : a.log.parent n with
  | none => exact ⟨w, a, .parentNone hi hp, h⟩
  | some p => exact h.loadGive (h.layers.parentKnown n p hp) _ (.parent hi hp)

theorem Sim.layerName (h : Sim s w a) {i : Nat} (hi : a.Held i) :
    SimulatesAt w a (.layerName i) (s.perform ch (.layerName i)) := by
  obtain ⟨n, hi⟩ := hi
  obtain ⟨x, hx, hn, hxh⟩ := h.handle hi
  obtain ⟨hxn, _⟩ := h.layers.named hn hxh
  simp only [perform]
  rw [h.withLayer hx, hxn]
  exact ⟨a, .layerName hi, h⟩

theorem Sim.parentName (h : Sim s w a) {i : Nat} (hi : a.Held i) :
    SimulatesAt w a (.parentName i) (s.perform ch (.parentName i)) := by
  obtain ⟨n, hi⟩ := hi
  obtain ⟨x, hx, hn, hxh⟩ := h.handle hi
  obtain ⟨_, hxp⟩ := h.layers.named hn hxh
  simp only [perform]
  rw [h.withLayer hx, hxp]
  exact ⟨a, .parentName hi, h⟩

theorem Sim.stackNames (h : Sim s w a) {i : Nat} (hi : a.Held i) :
    SimulatesAt w a (.stackNames i) (s.perform ch (.stackNames i)) := by
  obtain ⟨n, hi⟩ := hi
  obtain ⟨x, hx, hn, hxh⟩ := h.handle hi
  obtain ⟨hxn, _⟩ := h.layers.named hn hxh
  simp only [perform]
  rw [h.withLayer hx, hxn]
  obtain ⟨ns, h1, h2⟩ := h.layers.run.shape.closed.stackNames h.layers.run.shape.parent n
  rw [← h.store, h2]
  exact ⟨a, .stackNames hi (h.layers.line h1 hn), h⟩

theorem Sim.query (h : Sim s w a) {i : Nat} (hi : a.Held i) {q : Query K V} (hq : q ≠ .triplesP 0) :
    SimulatesAt w a (.query i q) (s.perform ch (.query i q)) := by
  obtain ⟨n, hi⟩ := hi
  obtain ⟨x, hx, hn, hxh⟩ := h.handle hi
  obtain ⟨h1, h2, h3, h4⟩ := h.layers.held hn hxh
  simp only [perform]
  rw [h.withLayer hx]
  obtain ⟨r, h5, h6⟩ := ask_right h1 h3 q hq
  rw [h5]
  have h4' : triplesOf x.stack = a.log.triples n := by
    funext t; exact propext (h4 t)
  exact ⟨a, .query hi (by rw [h2, ← h4']; exact h6), h⟩

omit [LinearOrder K] [LinearOrder V] [DecidableEq L] in
theorem rightChange {P : Triple → Prop} {N : List Triple}
    {all : Out (List Triple)} {mem : Triple → Out Bool}
    {bys : Nat → Out (List Triple)} {bysp : Nat → Nat → Out (List Triple)}
    {byp : Nat → Out (List Triple)} {count : Out Nat} {byo : Nat → Out (List Triple)}
    (h : SideTold N all mem bys bysp byp count)
    (ho : ∀ o, o ≠ 0 → ((∃ t ∈ N, t.o = o) ∨ ∀ t ∈ N, t.o < o) →
      byo o = .ok (N.filter (fun t => t.o == o)))
    (hP : ∀ u, u ∈ N ↔ P u) (q : ChangeQuery) (hq : q.Sound P) :
    ∃ r : Answer K V, RightChange P q r ∧
      (match q with
        | .has u => said (L := L) (.answer ∘ .flag) (mem u)
        | .all => said (.answer ∘ .list) all
        | .withS s => said (.answer ∘ .list) (bys s)
        | .withSP s p => said (.answer ∘ .list) (bysp s p)
        | .withP p => said (.answer ∘ .list) (byp p)
        | .withO o => said (.answer ∘ .list) (byo o)
        | .count => said (.answer ∘ .number) count) = .answer r := by
  cases q with
  | has u => exact ⟨.flag (decide (u ∈ N)), by simpa [RightChange] using hP u, by simp only [h.mem]; rfl⟩
  | all => exact ⟨.list _, ⟨h.sorted, hP⟩, by simp only [h.all]; rfl⟩
  | withS x =>
    refine ⟨.list _, ⟨List.Pairwise.filter _ h.sorted, ?_⟩, by simp only [h.bys]; rfl⟩
    intro u; simp [List.mem_filter, hP]
  | withSP x y =>
    refine ⟨.list _, ⟨List.Pairwise.filter _ h.sorted, ?_⟩, by simp only [h.bysp]; rfl⟩
    intro u; simp [List.mem_filter, hP]
  | withP x =>
    refine ⟨.list _, ⟨List.Pairwise.filter _ h.sorted, ?_⟩, by simp only [h.byp x hq]; rfl⟩
    intro u; simp [List.mem_filter, hP]
  | withO x =>
    refine ⟨.list _, ⟨List.Pairwise.filter _ h.sorted, ?_⟩, by
      simp only [ho x hq.1 (hq.2.imp (fun ⟨u, h1, h2⟩ => ⟨u, (hP u).2 h1, h2⟩)
        (fun h1 u hu => h1 u ((hP u).1 hu)))]; rfl⟩
    intro u; simp [List.mem_filter, hP]
  | count => exact ⟨.number _, ⟨N, ⟨h.sorted, hP⟩, rfl⟩, by simp only [h.count]; rfl⟩

omit [LinearOrder K] [LinearOrder V] in
theorem noTriples [DecidableEq K] [DecidableEq V] (u : Triple) :
    ¬ Stack.tripleExists ([] : List (LayerData K V)) u = some true := by
  unfold Stack.tripleExists
  split <;> simp [Stack.tripleExistsLoop]

/-- What the store tells about the changes of a layer. -/
theorem LayersSim.changes {log : History (VTriple K V)} {ids : Nat → Ids K V}
    {hidden : List Nat} {rolled : Nat → Option (Option Nat)} (h : LayersSim w log ids hidden rolled)
    {n : Nat} (hn : log.known n) {l : InternalLayer K V} (hl : (n, l) ∈ w.held) :
    ∃ P N, SideTold P (View.additions ⟨w.store, w.cache⟩ n) (View.additionExists ⟨w.store, w.cache⟩ n)
        (View.additionsS ⟨w.store, w.cache⟩ n) (View.additionsSP ⟨w.store, w.cache⟩ n)
        (View.additionsP ⟨w.store, w.cache⟩ n) (View.additionCount ⟨w.store, w.cache⟩ n) ∧
      SideTold N (View.removals ⟨w.store, w.cache⟩ n) (View.removalExists ⟨w.store, w.cache⟩ n)
        (View.removalsS ⟨w.store, w.cache⟩ n) (View.removalsSP ⟨w.store, w.cache⟩ n)
        (View.removalsP ⟨w.store, w.cache⟩ n) (View.removalCount ⟨w.store, w.cache⟩ n) ∧
      (∀ o, o ≠ 0 → ((∃ t ∈ P, t.o = o) ∨ ∀ t ∈ P, t.o < o) →
        View.additionsO ⟨w.store, w.cache⟩ n o = .ok (P.filter (fun t => t.o == o))) ∧
      (∀ o, o ≠ 0 → ((∃ t ∈ N, t.o = o) ∨ ∀ t ∈ N, t.o < o) →
        View.removalsO ⟨w.store, w.cache⟩ n o = .ok (N.filter (fun t => t.o == o))) ∧
      (∀ u, u ∈ P ↔ (ids n).ofSet (log.addedBy n) u) ∧
      ∀ u, u ∈ N ↔ (ids n).ofSet (log.removedBy n) u := by
  obtain ⟨h1, h2, h3, h4⟩ := h.held hn hl
  have h4' : triplesOf l.stack = log.triples n := by
    funext t; exact propext (h4 t)
  have hpar := h.parent n hn
  have key : ∃ (w' : World K V) (B : List (LayerData K V)), Run true w' ∧
      (⟨w.store, w.cache⟩ : View K V) ∈ w'.seen ∧ (n, l) ∈ w'.held ∧ ParentStack w' n B ∧
      Reachable B ∧ NodesOnly B ∧ triplesOf B = log.below (log.parent n) := by
    cases hp : log.parent n with
    | none =>
      refine ⟨w, [], h.run, List.mem_cons_self .., hl, Or.inl ⟨by rw [hpar, hp], rfl⟩, .none, ?_, ?_⟩
      · rintro g ⟨u, _, hx⟩; exact absurd hx (noTriples u)
      · funext t
        refine propext ⟨?_, False.elim⟩
        rintro ⟨u, _, hx⟩; exact absurd hx (noTriples u)
    | some p =>
      have hpk := h.parentKnown n p hp
      obtain ⟨⟨lo, cs⟩, g2, g3⟩ := getLayer_total h.run.inv.ok h.run.inv.cache p
      cases lo with
      | none => exact absurd (g3.2 (h.has hpk)) (by simp)
      | some lp =>
        have g4 : Run true { w with held := (p, lp) :: w.held, loaded := cs ++ w.loaded, past := w.seen } :=
          .step h.run (.load (v := fun _ => ⟨w.store, w.cache⟩) (i := fun _ => 0)
            (fun _ => rfl) (fun _ => Nat.le_refl _) g2)
        have g5 := h.frame g4 (fun _ => rfl) rfl
        obtain ⟨k1, k2, k3, k4⟩ := g5.held hpk (l := lp) (List.mem_cons_self ..)
        refine ⟨_, lp.stack, g4, List.mem_cons_self .., List.mem_cons_of_mem _ hl,
          Or.inr ⟨p, lp, by rw [← hp, ← hpar], List.mem_cons_self .., rfl⟩, k1, k3, ?_⟩
        funext t
        exact propext (k4 t)
  obtain ⟨w', B, g1, g2, g3, g4, g5, g6, g7⟩ := key
  obtain ⟨P, N, k1, k2, k3, k4⟩ := C54_changes_partial g1 g2 (h.has hn) g3 g4
  obtain ⟨P', N', b1, b2, b3, b4⟩ := C54_changes_by_object_partial g1 g2 (h.has hn) g3 g4
  rw [k1.all] at b1
  rw [k2.all] at b2
  cases b1
  cases b2
  obtain ⟨e, S, _, r1, r2, r3⟩ := stored_own g1 g3 g4
  have hfit : (ids n).Fits (idsOf B) (log.triples n) := by
    rw [h2, ← idsOf_congr r2, ← idsOf_congr r3]
    refine idsOf_fits (T := [e.data]) (S := S) r1 ?_
    intro t ht
    rw [← h4'] at ht
    obtain ⟨u, hu, hx⟩ := ht
    refine ⟨u, ?_, by rw [← hx]; exact r2.tripleExists u⟩
    have hq := (code_iff h1 t u).2 hu
    rw [← idsOf_congr r2] at hq
    exact (code_iff r1 t u).1 hq
  have hcov : ∀ t, log.below (log.parent n) t → ∃ u, (idsOf B).code t u := by
    intro t ht
    rw [← g7] at ht
    obtain ⟨u, hu, _⟩ := ht
    exact ⟨u, (code_iff g5 t u).2 hu⟩
  have tot : ∀ {A : List (LayerData K V)}, Reachable A → ∀ u,
      (Stack.tripleExists A u = some false ↔ ¬ Stack.tripleExists A u = some true) := by
    intro A hA u
    obtain ⟨Ps, Ns, ho⟩ := hA.good
    obtain ⟨b, hb, _⟩ := ho.exists_total u
    rw [hb]; cases b <;> simp
  have o1 : ∀ u, Stack.tripleExists l.stack u = some true ↔ (ids n).ofSet (log.triples n) u := by
    intro u; rw [← ofSet_iff h1 h3 u, h2, h4']
  have o2 : ∀ u, Stack.tripleExists B u = some true ↔ (idsOf B).ofSet (log.below (log.parent n)) u := by
    intro u; rw [← ofSet_iff g5 g6 u, g7]
  refine ⟨P, N, k1, k2, fun o h1 h2 => b3 o (Or.inr ⟨h1, h2⟩), fun o h1 h2 => b4 o (Or.inr ⟨h1, h2⟩),
    ?_, ?_⟩
  · intro u
    rw [k3, tot g5, o1, o2]
    exact (hfit.added hcov u).symm
  · intro u
    rw [k4, tot h1, o1, o2]
    exact (hfit.removed hcov u).symm

theorem Sim.additions (h : Sim s w a) {i : Nat} {q : ChangeQuery}
    (hi : ∃ n, a.handles[i]? = some n ∧ q.Sound ((a.ids n).ofSet (a.log.addedBy n))) :
    SimulatesAt w a (.additions i q) (s.perform ch (.additions i q)) := by
  obtain ⟨n, hi, hq⟩ := hi
  obtain ⟨x, hx, hn, hxh⟩ := h.handle hi
  obtain ⟨hxn, _⟩ := h.layers.named hn hxh
  simp only [perform]
  rw [h.withLayer hx, hxn, ← h.store, ← h.cache]
  obtain ⟨P, N, k1, _, k2, _, k3, _⟩ := h.layers.changes hn hxh
  obtain ⟨r, r1, r2⟩ := rightChange (K := K) (V := V) (L := L) k1 k2 k3 q hq
  have : askAdditions ⟨w.store, w.cache⟩ n q = (.answer r : Ans K V L) := by
    rw [← r2]; cases q <;> rfl
  rw [this]
  exact ⟨a, .additions hi r1, h⟩

theorem Sim.removals (h : Sim s w a) {i : Nat} {q : ChangeQuery}
    (hi : ∃ n, a.handles[i]? = some n ∧ q.Sound ((a.ids n).ofSet (a.log.removedBy n))) :
    SimulatesAt w a (.removals i q) (s.perform ch (.removals i q)) := by
  obtain ⟨n, hi, hq⟩ := hi
  obtain ⟨x, hx, hn, hxh⟩ := h.handle hi
  obtain ⟨hxn, _⟩ := h.layers.named hn hxh
  simp only [perform]
  rw [h.withLayer hx, hxn, ← h.store, ← h.cache]
  obtain ⟨P, N, _, k2, _, k3, _, k4⟩ := h.layers.changes hn hxh
  obtain ⟨r, r1, r2⟩ := rightChange (K := K) (V := V) (L := L) k2 k3 k4 q hq
  have : askRemovals ⟨w.store, w.cache⟩ n q = (.answer r : Ans K V L) := by
    rw [← r2]; cases q <;> rfl
  rw [this]
  exact ⟨a, .removals hi r1, h⟩

end Verif.Api
