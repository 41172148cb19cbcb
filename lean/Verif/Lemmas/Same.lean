import Verif.Lemmas.ReachOk

/-!
Stacks of layers that give the same answers.
-/

set_option linter.unusedSectionVars false
set_option linter.unusedVariables false

namespace Verif

variable {K V : Type} [LinearOrder K] [LinearOrder V]

/-- Two stacks agree on the ids of all entries, on the counts and on the presence of
all id triples. -/
structure Same (A B : List (LayerData K V)) : Prop where
  nv : ∀ o, Stack.objectId A o = Stack.objectId B o
  pr : ∀ p, Stack.predId A p = Stack.predId B p
  nvCount : Stack.nvCount A = Stack.nvCount B
  pCount : Stack.pCount A = Stack.pCount B
  ex : ∀ t, Stack.tripleExists A t = Stack.tripleExists B t

namespace Same
variable {A B C : List (LayerData K V)}

theorem refl (A : List (LayerData K V)) : Same A A :=
  ⟨fun _ => rfl, fun _ => rfl, rfl, rfl, fun _ => rfl⟩

theorem symm (h : Same A B) : Same B A :=
  ⟨fun o => (h.nv o).symm, fun p => (h.pr p).symm, h.nvCount.symm, h.pCount.symm,
    fun t => (h.ex t).symm⟩

theorem trans (h : Same A B) (g : Same B C) : Same A C :=
  ⟨fun o => (h.nv o).trans (g.nv o), fun p => (h.pr p).trans (g.pr p),
    h.nvCount.trans g.nvCount, h.pCount.trans g.pCount, fun t => (h.ex t).trans (g.ex t)⟩

theorem present {Ps Ns Ps' Ns' : List (List Triple)} (h : Same A B) (hA : StackOk A Ps Ns)
    (hB : StackOk B Ps' Ns') (t : Triple) : present Ps Ns t ↔ present Ps' Ns' t := by
  rw [← hA.exists_iff, ← hB.exists_iff, h.ex]

theorem res (h : Same A B) (g : GTriple K V) (t : Triple) : Res A g t ↔ Res B g t := by
  unfold Res; rw [h.nv, h.nv, h.pr]

theorem content (h : Same A B) (g : GTriple K V) : content A g ↔ content B g := by
  unfold Verif.content
  simp only [h.res, h.ex]

end Same

theorem node_mem_iff {S : List (LayerData K V)} {Ps Ns : List (List Triple)}
    (hS : StackOk S Ps Ns) (k : K) :
    Stack.objectId S (.node k) = some none ↔ ∀ e ∈ S, k ∉ e.nodes := by
  refine ⟨objectId_none_node hS, ?_⟩
  intro h
  rw [objectId_eq hS.counts]
  rcases lvId_total hS.nv (.node k) with ⟨_, _, _, _, e, he, hk⟩ | ⟨q, _⟩
  · exfalso
    obtain ⟨e', he', rfl⟩ := List.mem_map.1 he
    simp only [LayerData.objs, List.mem_append, List.mem_map] at hk
    rcases hk with ⟨k', hk', e⟩ | ⟨k', hk', e⟩
    · cases e; exact h e' he' hk'
    · cases e
  · exact q

theorem value_mem_iff {S : List (LayerData K V)} {Ps Ns : List (List Triple)}
    (hS : StackOk S Ps Ns) (k : V) :
    Stack.objectId S (.value k) = some none ↔ ∀ e ∈ S, k ∉ e.values := by
  refine ⟨objectId_none_value hS, ?_⟩
  intro h
  rw [objectId_eq hS.counts]
  rcases lvId_total hS.nv (.value k) with ⟨_, _, _, _, e, he, hk⟩ | ⟨q, _⟩
  · exfalso
    obtain ⟨e', he', rfl⟩ := List.mem_map.1 he
    simp only [LayerData.objs, List.mem_append, List.mem_map] at hk
    rcases hk with ⟨k', hk', e⟩ | ⟨k', hk', e⟩
    · cases e
    · cases e; exact h e' he' hk'
  · exact q

theorem pred_mem_iff {S : List (LayerData K V)} {Ps Ns : List (List Triple)}
    (hS : StackOk S Ps Ns) (k : K) :
    Stack.predId S k = some none ↔ ∀ e ∈ S, k ∉ e.preds := by
  refine ⟨predId_none hS, ?_⟩
  intro h
  rw [predId_eq hS.counts]
  rcases lvId_total hS.pr k with ⟨_, _, _, _, e, he, hk⟩ | ⟨q, _⟩
  · exfalso
    obtain ⟨e', he', rfl⟩ := List.mem_map.1 he
    exact h e' he' hk
  · exact q

/-- What a layer adds to the stack below. -/
theorem StackOk.uncons {d : LayerData K V} {S : List (LayerData K V)} {Ps Ns : List (List Triple)}
    (h : StackOk (d :: S) Ps Ns) :
    ∃ P N Ps' Ns', Ps = P :: Ps' ∧ Ns = N :: Ns' ∧ StackOk S Ps' Ns' ∧ Stored d.pos P ∧
      NegStored d.neg N ∧ (∀ t ∈ P, ¬ present Ps' Ns' t) ∧ (∀ t ∈ N, present Ps' Ns' t) ∧
      (d.parentNV = Stack.nvCount S ∧ d.parentP = Stack.pCount S) ∧ DictSorted d ∧
      (∀ k ∈ d.nodes, ∀ e ∈ S, k ∉ e.nodes) ∧ (∀ v ∈ d.values, ∀ e ∈ S, v ∉ e.values) ∧
      (∀ p ∈ d.preds, ∀ e ∈ S, p ∉ e.preds) ∧
      IdMapOk d.nvMap (d.nodes.length + d.values.length) ∧ IdMapOk d.pMap d.preds.length ∧
      (∀ t ∈ P, t.s ≤ Stack.nvCount (d :: S) ∧ t.p ≤ Stack.pCount (d :: S) ∧
        t.o ≤ Stack.nvCount (d :: S)) := by
  obtain ⟨P, N, Ps', Ns', rfl, rfl, h'⟩ := h.tail
  obtain ⟨h1, h2, h3, h4, h5, h6, h7⟩ := h
  cases h1 with
  | cons g1 g2 g3 =>
    refine ⟨P, N, Ps', Ns', rfl, rfl, h', g1, g2, fun t => (h2 t).1, fun t => (h2 t).2.1,
      ⟨h3.1, h3.2.1⟩, h6 d (by simp), ?_, ?_, ?_, ?_, h5.2.2.1, h7.1⟩
    · intro k hk e he hke
      exact h4.2.1 (.node k) (by simp [LayerData.objs, hk]) (e.objs, e.nvMap)
        (List.mem_map.2 ⟨e, he, rfl⟩) (by simp [LayerData.objs, hke])
    · intro k hk e he hke
      exact h4.2.1 (.value k) (by simp [LayerData.objs, hk]) (e.objs, e.nvMap)
        (List.mem_map.2 ⟨e, he, rfl⟩) (by simp [LayerData.objs, hke])
    · intro k hk e he hke
      exact h5.2.1 k hk (e.preds, e.pMap) (List.mem_map.2 ⟨e, he, rfl⟩) hke
    · rw [← LayerData.objs_length]; exact h4.2.2.1

/-- A layer can be put on top of any stack that gives the same answers as the one it was
made for. -/
theorem StackOk.swap1 {d : LayerData K V} {S S' : List (LayerData K V)}
    {Ps Ns Ps' Ns' : List (List Triple)} {P N : List Triple}
    (h : StackOk (d :: S) (P :: Ps) (N :: Ns))
    (h' : StackOk S' Ps' Ns') (hs : Same S S') :
    StackOk (d :: S') (P :: Ps') (N :: Ns') ∧ Same (d :: S) (d :: S') := by
  obtain ⟨P0, N0, Ps0, Ns0, e1, e2, h0, g1, g2, g3, g4, g5, g6, g7, g8, g9, g10, g11, g12⟩ :=
    h.uncons
  cases e1
  cases e2
  have hp := hs.present h0 h'
  have hok : StackOk (d :: S') (P :: Ps') (N :: Ns') := by
    refine h'.cons g1 g2 (fun t ht => fun hh => g3 t ht ((hp t).2 hh))
      (fun t ht => (hp t).1 (g4 t ht)) ⟨by rw [g5.1, hs.nvCount], by rw [g5.2, hs.pCount]⟩ g6
      ?_ ?_ ?_ g10 g11 ?_
    · intro k hk
      rw [← node_mem_iff h', ← hs.nv, node_mem_iff h0]
      exact g7 k hk
    · intro k hk
      rw [← value_mem_iff h', ← hs.nv, value_mem_iff h0]
      exact g8 k hk
    · intro k hk
      rw [← pred_mem_iff h', ← hs.pr, pred_mem_iff h0]
      exact g9 k hk
    · intro t ht
      have := g12 t ht
      simp only [Stack.nvCount, Stack.pCount] at this ⊢
      exact this
  refine ⟨hok, ?_, ?_, rfl, rfl, ?_⟩
  · intro o
    have hx := hs.nv o
    rw [objectId_eq h0.counts, objectId_eq h'.counts] at hx
    rw [objectId_eq h.counts, objectId_eq hok.counts]
    show lvId ((d.objs, d.nvMap) :: nvLevels S) o = lvId ((d.objs, d.nvMap) :: nvLevels S') o
    unfold lvId
    rw [← nvCount_eq h0.counts, ← nvCount_eq h'.counts, hs.nvCount, hx]
  · intro o
    have hx := hs.pr o
    rw [predId_eq h0.counts, predId_eq h'.counts] at hx
    rw [predId_eq h.counts, predId_eq hok.counts]
    show lvId ((d.preds, d.pMap) :: pLevels S) o = lvId ((d.preds, d.pMap) :: pLevels S') o
    unfold lvId
    rw [← pCount_eq h0.counts, ← pCount_eq h'.counts, hs.pCount, hx]
  · intro t
    obtain ⟨b, hb, hbt⟩ := h.exists_total t
    obtain ⟨b', hb', hbt'⟩ := hok.exists_total t
    rw [hb, hb']
    congr 1
    rw [Bool.eq_iff_iff, hbt, hbt']
    simp only [Verif.present, hp t]

theorem StackOk.swap {S S' : List (LayerData K V)} {Ps' Ns' : List (List Triple)}
    (h' : StackOk S' Ps' Ns') (hs : Same S S') : ∀ {T : List (LayerData K V)}
    {Ps Ns : List (List Triple)}, StackOk (T ++ S) Ps Ns →
    ∃ Qs Ms, StackOk (T ++ S') Qs Ms ∧ Same (T ++ S) (T ++ S')
  | [], Ps, Ns, h => ⟨Ps', Ns', h', hs⟩
  | d :: T, Ps, Ns, h => by
    rw [List.cons_append] at h
    obtain ⟨P, N, Ps0, Ns0, rfl, rfl, h0⟩ := h.tail
    obtain ⟨Qs, Ms, g1, g2⟩ := StackOk.swap h' hs h0
    obtain ⟨k1, k2⟩ := StackOk.swap1 h g1 g2
    exact ⟨_, _, k1, k2⟩

end Verif
