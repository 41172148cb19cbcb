import Verif.Lemmas.CommitParts

/-!
What the builder's commit hands to the file builders.
-/

set_option linter.unusedSectionVars false
set_option linter.unusedVariables false

namespace Verif

open SimpleBuilder

variable {K V : Type} [LinearOrder K] [LinearOrder V]

/-- The ids of `g` given the dictionary entries of the new layer. -/
def NewRes (S : List (LayerData K V)) (nodes preds : List K) (values : List V) (g : GTriple K V)
    (t : Triple) : Prop :=
  lvId ((nodes.map Obj.node ++ values.map Obj.value, none) :: nvLevels S) g.s = some (some t.s) ∧
  lvId ((preds, none) :: pLevels S) g.p = some (some t.p) ∧
  lvId ((nodes.map Obj.node ++ values.map Obj.value, none) :: nvLevels S) g.o = some (some t.o)

theorem RelT.fun {S : List (LayerData K V)} {b : SimpleBuilder K V} {A R : GTriple K V → Prop}
    (h : BldInv S b A R) {g : GTriple K V} {t u : Triple} (h1 : RelT S b.nvMap b.pMap g t)
    (h2 : RelT S b.nvMap b.pMap g u) : t = u :=
  (Triple.eq_iff _ _).2 ⟨h.nv.rel_fun h1.1 h2.1, h.p.rel_fun h1.2.1 h2.2.1,
    h.nv.rel_fun h1.2.2 h2.2.2⟩

theorem RelT.inj {S : List (LayerData K V)} {b : SimpleBuilder K V} {A R : GTriple K V → Prop}
    (h : BldInv S b A R) {g g' : GTriple K V} {t : Triple} (h1 : RelT S b.nvMap b.pMap g t)
    (h2 : RelT S b.nvMap b.pMap g' t) : g = g' := by
  have e1 := h.nv.rel_inj h1.1 h2.1
  have e2 := h.p.rel_inj h1.2.1 h2.2.1
  have e3 := h.nv.rel_inj h1.2.2 h2.2.2
  obtain ⟨_, _, _⟩ := g
  obtain ⟨_, _, _⟩ := g'
  simp only at e1 e2 e3
  rw [e1, e2, e3]

theorem RelT.nonzero {S : List (LayerData K V)} {b : SimpleBuilder K V} {A R : GTriple K V → Prop}
    (h : BldInv S b A R) {g : GTriple K V} {t : Triple} (h1 : RelT S b.nvMap b.pMap g t) :
    t.Nonzero := by
  have := h.nv.rel_range h1.1
  have := h.p.rel_range h1.2.1
  have := h.nv.rel_range h1.2.2
  refine ⟨?_, ?_, ?_⟩ <;> omega

theorem BldInv.mem_adds {S : List (LayerData K V)} {b : SimpleBuilder K V}
    {A R : GTriple K V → Prop} (h : BldInv S b A R) {g : GTriple K V} {t : Triple}
    (hr : RelT S b.nvMap b.pMap g t) : t ∈ b.adds ↔ A g := by
  constructor
  · intro ht
    rcases h.adds.sound t ht with ⟨g', hg', r⟩ | ⟨hz, _⟩
    · rw [RelT.inj h hr r]; exact hg'
    · exact absurd (RelT.nonzero h hr) hz
  · intro hg
    obtain ⟨u, hu, r⟩ := h.adds.complete g hg
    rw [RelT.fun h hr r]; exact hu

theorem BldInv.mem_rems {S : List (LayerData K V)} {b : SimpleBuilder K V}
    {A R : GTriple K V → Prop} (h : BldInv S b A R) {g : GTriple K V} {t : Triple}
    (hr : RelT S b.nvMap b.pMap g t) : t ∈ b.rems ↔ R g := by
  constructor
  · intro ht
    rcases h.rems.sound t ht with ⟨g', hg', r⟩ | ⟨hz, _⟩
    · rw [RelT.inj h hr r]; exact hg'
    · exact absurd (RelT.nonzero h hr) hz
  · intro hg
    obtain ⟨u, hu, r⟩ := h.rems.complete g hg
    rw [RelT.fun h hr r]; exact hu

/-- The additions left after the no-op loop. -/
def keptAdds (b : SimpleBuilder K V) : List Triple :=
  (dedupAdj (isort b.adds)).map
    (fun a => if a ∈ dedupAdj (isort b.rems) then zeroTriple else a)

/-- The removals left after the no-op loop. -/
def keptRems (b : SimpleBuilder K V) : List Triple :=
  (dedupAdj (isort b.rems)).map (fun r => if r ∈ dedupAdj (isort b.adds) then zeroTriple
    else clearRemoval (Stack.nvCount b.parent) (Stack.pCount b.parent) r)

theorem zeroTriple_not : ¬ zeroTriple.Nonzero := by simp [zeroTriple, Triple.Nonzero]

/-- What a kept triple is: either without meaning and made of known ids, or one that
was asked for. -/
theorem BldInv.kept_adds {S : List (LayerData K V)} {b : SimpleBuilder K V}
    {A R : GTriple K V → Prop} (h : BldInv S b A R) {t : Triple} (ht : t ∈ keptAdds b) :
    (∃ g, A g ∧ ¬ R g ∧ RelT S b.nvMap b.pMap g t) ∨
    (¬ t.Nonzero ∧ t.s ≤ Stack.nvCount S ∧ t.p ≤ Stack.pCount S ∧ t.o ≤ Stack.nvCount S) := by
  obtain ⟨a, ha, he⟩ := List.mem_map.1 ht
  rw [mem_dedupAdj_isort] at ha
  simp only [mem_dedupAdj_isort] at he
  split at he
  · subst he
    exact Or.inr ⟨zeroTriple_not, Nat.zero_le _, Nat.zero_le _, Nat.zero_le _⟩
  · subst he
    rename_i hr
    rcases h.adds.sound a ha with ⟨g, hg, r⟩ | h'
    · exact Or.inl ⟨g, hg, fun hR => hr ((h.mem_rems r).2 hR), r⟩
    · exact Or.inr h'

theorem BldInv.kept_rems {S : List (LayerData K V)} {b : SimpleBuilder K V}
    {A R : GTriple K V → Prop} (h : BldInv S b A R) {t : Triple} (ht : t ∈ keptRems b) :
    ((∃ g, R g ∧ ¬ A g ∧ RelT S b.nvMap b.pMap g t) ∨ ¬ t.Nonzero) ∧
    t.s ≤ Stack.nvCount S ∧ t.p ≤ Stack.pCount S ∧ t.o ≤ Stack.nvCount S := by
  obtain ⟨a, ha, he⟩ := List.mem_map.1 ht
  rw [mem_dedupAdj_isort] at ha
  simp only [mem_dedupAdj_isort] at he
  have hz : (zeroTriple.s ≤ Stack.nvCount S ∧ zeroTriple.p ≤ Stack.pCount S ∧
      zeroTriple.o ≤ Stack.nvCount S) := ⟨Nat.zero_le _, Nat.zero_le _, Nat.zero_le _⟩
  split at he
  · subst he
    exact ⟨Or.inr zeroTriple_not, hz⟩
  · rename_i hr
    unfold clearRemoval at he
    rw [h.parent] at he
    split at he
    · subst he
      exact ⟨Or.inr zeroTriple_not, hz⟩
    · subst he
      rename_i hc
      refine ⟨?_, by omega⟩
      rcases h.rems.sound a ha with ⟨g, hg, r⟩ | h'
      · exact Or.inl ⟨g, hg, fun hA => hr ((h.mem_adds r).2 hA), r⟩
      · exact Or.inr h'.1

theorem BldInv.mem_keptAdds {S : List (LayerData K V)} {b : SimpleBuilder K V}
    {A R : GTriple K V → Prop} (h : BldInv S b A R) {g : GTriple K V} (ha : A g) (hr : ¬ R g) :
    ∃ t ∈ keptAdds b, RelT S b.nvMap b.pMap g t := by
  obtain ⟨t, ht, r⟩ := h.adds.complete g ha
  refine ⟨t, List.mem_map.2 ⟨t, mem_dedupAdj_isort.2 ht, ?_⟩, r⟩
  rw [if_neg]
  rw [mem_dedupAdj_isort]
  exact fun hm => hr ((h.mem_rems r).1 hm)

theorem BldInv.mem_keptRems {S : List (LayerData K V)} {Ps Ns : List (List Triple)}
    (hS : StackOk S Ps Ns) {b : SimpleBuilder K V}
    {A R : GTriple K V → Prop} (h : BldInv S b A R) {g : GTriple K V} {t : Triple} (hr : R g)
    (ha : ¬ A g) (hres : Res S g t) : t ∈ keptRems b := by
  have r := RelT.of_res (nvm := b.nvMap) (pm := b.pMap) hS.counts hres
  have hrange := (Res.range hS hres).2
  refine List.mem_map.2 ⟨t, mem_dedupAdj_isort.2 ((h.mem_rems r).2 hr), ?_⟩
  rw [if_neg]
  · unfold clearRemoval
    rw [h.parent, if_neg (by omega)]
  · rw [mem_dedupAdj_isort]
    exact fun hm => ha ((h.mem_adds r).1 hm)

/-- The part of a mapped list without zeros has no duplicates. -/
theorem map_filter_nodup {l : List Triple} (hl : l.Nodup) {f : Triple → Triple}
    (hf : ∀ t ∈ l, f t = t ∨ ¬ (f t).Nonzero) :
    ((l.map f).filter (fun t => decide t.Nonzero)).Nodup := by
  induction l with
  | nil => simp
  | cons a l ih =>
    obtain ⟨h1, h2⟩ := List.nodup_cons.1 hl
    have ih' := ih h2 (fun t ht => hf t (by simp [ht]))
    rw [List.map_cons]
    by_cases hz : (f a).Nonzero
    · rw [List.filter_cons_of_pos (by simpa using hz), List.nodup_cons]
      refine ⟨?_, ih'⟩
      intro hm
      obtain ⟨hm1, hm2⟩ := List.mem_filter.1 hm
      obtain ⟨x, hx, he⟩ := List.mem_map.1 hm1
      rcases hf a (by simp) with ha | ha
      · rcases hf x (by simp [hx]) with hx' | hx'
        · rw [ha, hx'] at he; subst he; exact h1 hx
        · rw [he] at hx'; exact hx' hz
      · exact ha hz
    · rw [List.filter_cons_of_neg (by simpa using hz)]
      exact ih'

theorem keptAdds_nodup (b : SimpleBuilder K V) :
    ((keptAdds b).filter (fun t => decide t.Nonzero)).Nodup := by
  apply map_filter_nodup (dedupAdj_isort_sortedLt _).nodup
  intro t _
  split
  · exact Or.inr zeroTriple_not
  · exact Or.inl rfl

theorem keptRems_nodup (b : SimpleBuilder K V) :
    ((keptRems b).filter (fun t => decide t.Nonzero)).Nodup := by
  apply map_filter_nodup (dedupAdj_isort_sortedLt _).nodup
  intro t _
  split
  · exact Or.inr zeroTriple_not
  · unfold clearRemoval
    split
    · exact Or.inr zeroTriple_not
    · exact Or.inl rfl

theorem mem_pickNodes {l : List (Obj K V × Nat)} {k : K} {i : Nat} :
    (k, i) ∈ pickNodes l ↔ (Obj.node k, i) ∈ l := by
  unfold pickNodes
  rw [List.mem_filterMap]
  constructor
  · rintro ⟨⟨o, j⟩, hm, he⟩
    cases o with
    | node k' => simp only [Option.some.injEq, Prod.mk.injEq] at he; obtain ⟨rfl, rfl⟩ := he; exact hm
    | value v => cases he
  · intro hm
    exact ⟨_, hm, rfl⟩

theorem mem_pickValues {l : List (Obj K V × Nat)} {v : V} {i : Nat} :
    (v, i) ∈ pickValues l ↔ (Obj.value v, i) ∈ l := by
  unfold pickValues
  rw [List.mem_filterMap]
  constructor
  · rintro ⟨⟨o, j⟩, hm, he⟩
    cases o with
    | value k' => simp only [Option.some.injEq, Prod.mk.injEq] at he; obtain ⟨rfl, rfl⟩ := he; exact hm
    | node v => cases he
  · intro hm
    exact ⟨_, hm, rfl⟩

theorem pickNodes_keys {l : List (Obj K V × Nat)} (h : (l.map Prod.fst).Nodup) :
    ((pickNodes l).map Prod.fst).Nodup := by
  induction l with
  | nil => simp [pickNodes]
  | cons q l ih =>
    simp only [List.map_cons, List.nodup_cons] at h
    obtain ⟨o, i⟩ := q
    cases o with
    | node k =>
      have : pickNodes ((Obj.node k, i) :: l) = (k, i) :: pickNodes l := rfl
      rw [this, List.map_cons, List.nodup_cons]
      refine ⟨?_, ih h.2⟩
      intro hm
      obtain ⟨⟨k', j⟩, hm', rfl⟩ := List.mem_map.1 hm
      exact h.1 (List.mem_map.2 ⟨_, mem_pickNodes.1 hm', rfl⟩)
    | value v =>
      have : pickNodes ((Obj.value v, i) :: l) = pickNodes l := rfl
      rw [this]; exact ih h.2

theorem pickValues_keys {l : List (Obj K V × Nat)} (h : (l.map Prod.fst).Nodup) :
    ((pickValues l).map Prod.fst).Nodup := by
  induction l with
  | nil => simp [pickValues]
  | cons q l ih =>
    simp only [List.map_cons, List.nodup_cons] at h
    obtain ⟨o, i⟩ := q
    cases o with
    | value k =>
      have : pickValues ((Obj.value k, i) :: l) = (k, i) :: pickValues l := rfl
      rw [this, List.map_cons, List.nodup_cons]
      refine ⟨?_, ih h.2⟩
      intro hm
      obtain ⟨⟨k', j⟩, hm', rfl⟩ := List.mem_map.1 hm
      exact h.1 (List.mem_map.2 ⟨_, mem_pickValues.1 hm', rfl⟩)
    | node v =>
      have : pickValues ((Obj.node v, i) :: l) = pickValues l := rfl
      rw [this]; exact ih h.2

/-- An entry is new to the layer and used by an addition that is not cancelled. -/
def NewNV (S : List (LayerData K V)) (A R : GTriple K V → Prop) (o : Obj K V) : Prop :=
  Stack.objectId S o = some none ∧ ∃ g, A g ∧ ¬ R g ∧ (g.s = o ∨ g.o = o)

/-- A predicate is new to the layer and used by an addition that is not cancelled. -/
def NewP (S : List (LayerData K V)) (A R : GTriple K V → Prop) (p : K) : Prop :=
  Stack.predId S p = some none ∧ ∃ g, A g ∧ ¬ R g ∧ g.p = p

theorem BldInv.prepare {S : List (LayerData K V)} {Ps Ns : List (List Triple)}
    (hS : StackOk S Ps Ns) {b : SimpleBuilder K V} {A R : GTriple K V → Prop} (h : BldInv S b A R)
    {nv : List (Obj K V × Nat)} {pm : List (K × Nat)} (hnv : nv.Perm b.nvMap)
    (hpm : pm.Perm b.pMap) :
    ∃ nodes preds values as rs, b.prepare nv pm = some (nodes, preds, values, as, rs) ∧
      SortedLt nodes ∧ SortedLt preds ∧ SortedLt values ∧
      (∀ k, k ∈ nodes ↔ NewNV S A R (.node k)) ∧ (∀ v, v ∈ values ↔ NewNV S A R (.value v)) ∧
      (∀ p, p ∈ preds ↔ NewP S A R p) ∧
      SortedLt (as.filter (fun t => decide t.Nonzero)) ∧
      SortedLt (rs.filter (fun t => decide t.Nonzero)) ∧
      (∀ t, t.Nonzero → (t ∈ as ↔ ∃ g, A g ∧ ¬ R g ∧ NewRes S nodes preds values g t)) ∧
      (∀ t, t.Nonzero → (t ∈ rs ↔ ∃ g, R g ∧ ¬ A g ∧ Res S g t)) := by
  have hoff := hS.nvCount
  have hpoff := hS.pCount
  -- ids of kept triples are within the bit vectors
  have hle : ∀ t ∈ keptAdds b ++ keptRems b,
      t.s ≤ Stack.nvCount S + (List.replicate (b.nodeCount + b.valCount) false).length ∧
      t.p ≤ Stack.pCount S + (List.replicate b.predCount false).length ∧
      t.o ≤ Stack.nvCount S + (List.replicate (b.nodeCount + b.valCount) false).length := by
    intro t ht
    rw [List.length_replicate, List.length_replicate]
    have e1 := h.nvc
    have e2 := h.pc
    rcases List.mem_append.1 ht with ht | ht
    · rcases h.kept_adds ht with ⟨g, _, _, r⟩ | ⟨_, r⟩
      · have := h.nv.rel_range r.1
        have := h.p.rel_range r.2.1
        have := h.nv.rel_range r.2.2
        omega
      · omega
    · have := (h.kept_rems ht).2
      omega
  obtain ⟨nu, pu, hmark, lnu, lpu, snu, spu⟩ := markAll_spec hle
  simp only [bit_replicate, Bool.false_eq_true, false_or] at snu spu
  rw [List.length_replicate] at lnu lpu
  -- which ids are used
  have usedNV : ∀ o i, (o, i) ∈ b.nvMap → Stack.nvCount S < i → (bit (Stack.nvCount S) nu i = true ↔
      ∃ g, A g ∧ ¬ R g ∧ (g.s = o ∨ g.o = o)) := by
    intro o i hm hi
    rw [snu i hi]
    constructor
    · rintro ⟨t, ht, hio⟩
      rcases List.mem_append.1 ht with ht | ht
      · rcases h.kept_adds ht with ⟨g, hA, hR, r⟩ | ⟨_, r⟩
        · refine ⟨g, hA, hR, ?_⟩
          rcases hio with rfl | rfl
          · exact Or.inl (h.nv.rel_inj r.1 (Or.inl hm))
          · exact Or.inr (h.nv.rel_inj r.2.2 (Or.inl hm))
        · omega
      · have := (h.kept_rems ht).2
        omega
    · rintro ⟨g, hA, hR, hgo⟩
      obtain ⟨t, ht, r⟩ := h.mem_keptAdds hA hR
      refine ⟨t, List.mem_append.2 (Or.inl ht), ?_⟩
      rcases hgo with rfl | rfl
      · exact Or.inl (h.nv.rel_fun r.1 (Or.inl hm))
      · exact Or.inr (h.nv.rel_fun r.2.2 (Or.inl hm))
  have usedP : ∀ p i, (p, i) ∈ b.pMap → Stack.pCount S < i → (bit (Stack.pCount S) pu i = true ↔
      ∃ g, A g ∧ ¬ R g ∧ g.p = p) := by
    intro p i hm hi
    rw [spu i hi]
    constructor
    · rintro ⟨t, ht, hio⟩
      rcases List.mem_append.1 ht with ht | ht
      · rcases h.kept_adds ht with ⟨g, hA, hR, r⟩ | ⟨_, r⟩
        · refine ⟨g, hA, hR, ?_⟩
          subst hio
          exact h.p.rel_inj r.2.1 (Or.inl hm)
        · omega
      · have := (h.kept_rems ht).2
        omega
    · rintro ⟨g, hA, hR, rfl⟩
      obtain ⟨t, ht, r⟩ := h.mem_keptAdds hA hR
      exact ⟨t, List.mem_append.2 (Or.inl ht), h.p.rel_fun r.2.1 (Or.inl hm)⟩
  -- collected entries
  let entries := nv.filter (fun q => decide (Stack.nvCount S < q.2) &&
    (nu[q.2 - Stack.nvCount S - 1]?).getD false)
  let pentries := pm.filter (fun q => decide (Stack.pCount S < q.2) &&
    (pu[q.2 - Stack.pCount S - 1]?).getD false)
  have hcol : collectUsed (Stack.nvCount S) nu nv = some entries := by
    apply collectUsed_spec
    intro a i hm hi
    have := h.nv.rel_range (Or.inl (hnv.mem_iff.1 hm))
    have := h.nvc
    omega
  have hpcol : collectUsed (Stack.pCount S) pu pm = some pentries := by
    apply collectUsed_spec
    intro a i hm hi
    have := h.p.rel_range (Or.inl (hpm.mem_iff.1 hm))
    have := h.pc
    omega
  have hent : ∀ o i, (o, i) ∈ entries ↔ (o, i) ∈ b.nvMap ∧ Stack.nvCount S < i ∧
      bit (Stack.nvCount S) nu i = true := by
    intro o i
    simp only [entries, List.mem_filter, hnv.mem_iff, Bool.and_eq_true, decide_eq_true_eq, bit]
  have hpent : ∀ o i, (o, i) ∈ pentries ↔ (o, i) ∈ b.pMap ∧ Stack.pCount S < i ∧
      bit (Stack.pCount S) pu i = true := by
    intro o i
    simp only [pentries, List.mem_filter, hpm.mem_iff, Bool.and_eq_true, decide_eq_true_eq, bit]
  have hkeys : (entries.map Prod.fst).Nodup := by
    have h1 : (nv.map Prod.fst).Nodup := (hnv.map Prod.fst).nodup_iff.2 h.nv.keys
    exact List.Nodup.sublist (List.Sublist.map _ List.filter_sublist) h1
  have hpkeys : (pentries.map Prod.fst).Nodup := by
    have h1 : (pm.map Prod.fst).Nodup := (hpm.map Prod.fst).nodup_iff.2 h.p.keys
    exact List.Nodup.sublist (List.Sublist.map _ List.filter_sublist) h1
  let nodesE := sortEntries (pickNodes entries)
  let valuesE := sortEntries (pickValues entries)
  let predsE := sortEntries pentries
  have hsn : SortedLt (nodesE.map Prod.fst) := sortEntries_sorted (pickNodes_keys hkeys)
  have hsv : SortedLt (valuesE.map Prod.fst) := sortEntries_sorted (pickValues_keys hkeys)
  have hsp : SortedLt (predsE.map Prod.fst) := sortEntries_sorted hpkeys
  let E : List (Obj K V × Nat) := nodesE.map (fun q => (Obj.node q.1, q.2)) ++
    valuesE.map (fun q => (Obj.value q.1, q.2))
  have hEfst : E.map Prod.fst = (nodesE.map Prod.fst).map Obj.node ++
      (valuesE.map Prod.fst).map Obj.value := by
    simp only [E, List.map_append, List.map_map]
    rfl
  have hEmem : ∀ o i, (o, i) ∈ E ↔ (o, i) ∈ entries := by
    intro o i
    simp only [E, List.mem_append, List.mem_map, nodesE, valuesE]
    cases o with
    | node k =>
      constructor
      · rintro (⟨⟨k', j⟩, hm, he⟩ | ⟨⟨k', j⟩, hm, he⟩)
        · simp only [Prod.mk.injEq, Obj.node.injEq] at he
          obtain ⟨rfl, rfl⟩ := he
          exact mem_pickNodes.1 ((sortEntries_perm _).mem_iff.1 hm)
        · simp at he
      · intro hm
        exact Or.inl ⟨(k, i), (sortEntries_perm _).mem_iff.2 (mem_pickNodes.2 hm), rfl⟩
    | value k =>
      constructor
      · rintro (⟨⟨k', j⟩, hm, he⟩ | ⟨⟨k', j⟩, hm, he⟩)
        · simp at he
        · simp only [Prod.mk.injEq, Obj.value.injEq] at he
          obtain ⟨rfl, rfl⟩ := he
          exact mem_pickValues.1 ((sortEntries_perm _).mem_iff.1 hm)
      · intro hm
        exact Or.inr ⟨(k, i), (sortEntries_perm _).mem_iff.2 (mem_pickValues.2 hm), rfl⟩
  have hEk : (E.map Prod.fst).Nodup := by
    rw [hEfst, List.nodup_append]
    refine ⟨List.Nodup.map (fun a b => obj_node_inj a b) hsn.nodup,
      List.Nodup.map (fun a b => obj_value_inj a b) hsv.nodup, ?_⟩
    intro a ha b hb hab
    obtain ⟨k, _, rfl⟩ := List.mem_map.1 ha
    obtain ⟨v, _, rfl⟩ := List.mem_map.1 hb
    cases hab
  have hEs : (E.map Prod.snd).Nodup := by
    refine List.Nodup.map_on ?_ (List.Nodup.of_map _ hEk)
    rintro ⟨a, i⟩ ha ⟨a', i'⟩ ha' he
    simp only at he
    subst he
    have h1 := (hent a i).1 ((hEmem a i).1 ha)
    have h2 := (hent a' i).1 ((hEmem a' i).1 ha')
    rw [h.nv.inj a a' i h1.1 h2.1 (by omega)]
  have hPmem : ∀ o i, (o, i) ∈ predsE ↔ (o, i) ∈ pentries := fun o i => (sortEntries_perm _).mem_iff
  have hPs : (predsE.map Prod.snd).Nodup := by
    refine List.Nodup.map_on ?_ (List.Nodup.of_map _ hsp.nodup)
    rintro ⟨a, i⟩ ha ⟨a', i'⟩ ha' he
    simp only at he
    subst he
    have h1 := (hpent a i).1 ((hPmem a i).1 ha)
    have h2 := (hpent a' i).1 ((hPmem a' i).1 ha')
    rw [h.p.inj a a' i h1.1 h2.1 (by omega)]
  -- conversion maps
  obtain ⟨nm, hfill, lnm, snm, _⟩ := fillMap_spec (off := Stack.nvCount S)
    (first := Stack.nvCount S + 1) (m := List.replicate (b.nodeCount + b.valCount) 0) hEs (by
      rintro ⟨a, i⟩ ha
      have h1 := (hent a i).1 ((hEmem a i).1 ha)
      have h2 := h.nv.rel_range (Or.inl h1.1)
      have h3 := h.nvc
      rw [List.length_replicate]
      simp only
      omega)
  rw [← fillMap_append] at hfill
  obtain ⟨nm1, hfill1, hfill2⟩ := Option.bind_eq_some_iff.1 hfill
  obtain ⟨pm', hpfill, lpm, spm, _⟩ := fillMap_spec (off := Stack.pCount S)
    (first := Stack.pCount S + 1) (m := List.replicate b.predCount 0) hPs (by
      rintro ⟨a, i⟩ ha
      have h1 := (hpent a i).1 ((hPmem a i).1 ha)
      have h2 := h.p.rel_range (Or.inl h1.1)
      have h3 := h.pc
      rw [List.length_replicate]
      simp only
      omega)
  -- conversion of single ids
  have convNV : ∀ {o i}, Rel (nvLevels S) b.nvMap o i →
      (Stack.nvCount S < i → bit (Stack.nvCount S) nu i = true) →
      ∃ u, remapId (Stack.nvCount S) nm i = some u ∧
        lvId ((E.map Prod.fst, none) :: nvLevels S) o = some (some u) := by
    intro o i hr hu
    rw [hoff]
    refine convert_spec h.nv (used := fun i => bit (Stack.nvCount S) nu i = true) ?_ hEk ?_ hr ?_
    · intro a j
      rw [hEmem, hent, hoff]
    · intro j q hq
      have := snm j q hq
      rw [hoff] at this
      exact this
    · rw [← hoff]; exact hu
  have convP : ∀ {o i}, Rel (pLevels S) b.pMap o i →
      (Stack.pCount S < i → bit (Stack.pCount S) pu i = true) →
      ∃ u, remapId (Stack.pCount S) pm' i = some u ∧
        lvId ((predsE.map Prod.fst, none) :: pLevels S) o = some (some u) := by
    intro o i hr hu
    rw [hpoff]
    refine convert_spec h.p (used := fun i => bit (Stack.pCount S) pu i = true) ?_ hsp.nodup ?_ hr ?_
    · intro a j
      rw [hPmem, hpent, hpoff]
    · intro j q hq
      have := spm j q hq
      rw [hpoff] at this
      exact this
    · rw [← hpoff]; exact hu
  have okNV : LvOk ((E.map Prod.fst, none) :: nvLevels S) := by
    refine convert_ok h.nv ?_ hEk
    intro a i hm
    have := (hent a i).1 ((hEmem a i).1 hm)
    exact ⟨this.1, by omega⟩
  have okP : LvOk ((predsE.map Prod.fst, none) :: pLevels S) := by
    refine convert_ok h.p ?_ hsp.nodup
    intro a i hm
    have := (hpent a i).1 ((hPmem a i).1 hm)
    exact ⟨this.1, by omega⟩
  have hlow : ∀ {t : Triple}, t.s ≤ Stack.nvCount S ∧ t.p ≤ Stack.pCount S ∧ t.o ≤ Stack.nvCount S →
      remapTriple (Stack.nvCount S) (Stack.pCount S) nm pm' t = some t := by
    intro t ht
    unfold remapTriple remapId
    rw [if_neg (by omega), if_neg (by omega), if_neg (by omega)]
    rfl
  -- conversion of the kept additions
  have convT : ∀ {g t}, A g → ¬ R g → t ∈ keptAdds b → RelT S b.nvMap b.pMap g t →
      ∃ t', remapTriple (Stack.nvCount S) (Stack.pCount S) nm pm' t = some t' ∧
        NewRes S (nodesE.map Prod.fst) (predsE.map Prod.fst) (valuesE.map Prod.fst) g t' := by
    intro g t hA hR ht r
    have ht' : t ∈ keptAdds b ++ keptRems b := List.mem_append.2 (Or.inl ht)
    obtain ⟨s', e1, g1⟩ := convNV r.1 (fun hi => (snu _ hi).2 ⟨t, ht', Or.inl rfl⟩)
    obtain ⟨p', e2, g2⟩ := convP r.2.1 (fun hi => (spu _ hi).2 ⟨t, ht', rfl⟩)
    obtain ⟨o', e3, g3⟩ := convNV r.2.2 (fun hi => (snu _ hi).2 ⟨t, ht', Or.inr rfl⟩)
    refine ⟨⟨s', p', o'⟩, ?_, ?_⟩
    · unfold remapTriple
      simp only [e1, e2, e3, Option.bind_eq_bind, Option.bind_some]
      rfl
    · unfold NewRes
      rw [← hEfst]
      exact ⟨g1, g2, g3⟩
  have newInj : ∀ {g g' : GTriple K V} {t : Triple},
      NewRes S (nodesE.map Prod.fst) (predsE.map Prod.fst) (valuesE.map Prod.fst) g t →
      NewRes S (nodesE.map Prod.fst) (predsE.map Prod.fst) (valuesE.map Prod.fst) g' t → g = g' := by
    intro g g' t h1 h2
    unfold NewRes at h1 h2
    rw [← hEfst] at h1 h2
    have e1 := lvId_inj okNV h1.1 h2.1
    have e2 := lvId_inj okP h1.2.1 h2.2.1
    have e3 := lvId_inj okNV h1.2.2 h2.2.2
    obtain ⟨_, _, _⟩ := g
    obtain ⟨_, _, _⟩ := g'
    simp only at e1 e2 e3
    rw [e1, e2, e3]
  have newFun : ∀ {g : GTriple K V} {t t' : Triple},
      NewRes S (nodesE.map Prod.fst) (predsE.map Prod.fst) (valuesE.map Prod.fst) g t →
      NewRes S (nodesE.map Prod.fst) (predsE.map Prod.fst) (valuesE.map Prod.fst) g t' → t = t' := by
    intro g t t' h1 h2
    obtain ⟨a1, a2, a3⟩ := h1
    obtain ⟨b1, b2, b3⟩ := h2
    rw [a1] at b1; rw [a2] at b2; rw [a3] at b3
    simp only [Option.some.injEq] at b1 b2 b3
    exact (Triple.eq_iff _ _).2 ⟨b1, b2, b3⟩
  obtain ⟨as2, hras, fas⟩ := remapAll_spec (nv := Stack.nvCount S) (p := Stack.pCount S)
    (nm := nm) (pm := pm') (ts := keptAdds b) (by
      intro t ht
      rcases h.kept_adds ht with ⟨g, hA, hR, r⟩ | ⟨_, r⟩
      · obtain ⟨t', e, _⟩ := convT hA hR ht r
        exact ⟨t', e⟩
      · exact ⟨t, hlow r⟩)
  obtain ⟨rs2, hrrs, frs⟩ := remapAll_spec (nv := Stack.nvCount S) (p := Stack.pCount S)
    (nm := nm) (pm := pm') (ts := keptRems b) (by
      intro t ht
      exact ⟨t, hlow (h.kept_rems ht).2⟩)
  have hnoop := noops_spec (Stack.nvCount S) (Stack.pCount S) (dedupAdj (isort b.adds))
    (dedupAdj (isort b.rems)) (dedupAdj_isort_sortedLt _) (dedupAdj_isort_sortedLt _)
  have hka : (dedupAdj (isort b.adds)).map
    (fun a => if a ∈ dedupAdj (isort b.rems) then zeroTriple else a) = keptAdds b := rfl
  have hkr : (dedupAdj (isort b.rems)).map (fun r => if r ∈ dedupAdj (isort b.adds) then zeroTriple
    else clearRemoval (Stack.nvCount S) (Stack.pCount S) r) = keptRems b := by
      unfold keptRems; rw [h.parent]
  rw [hka, hkr] at hnoop
  have nodupAs : (as2.filter (fun t => decide t.Nonzero)).Nodup := by
    refine forall₂_filter_nodup (q := fun t => decide t.Nonzero) fas ?_ ?_ (keptAdds_nodup b)
    · intro t t' ht hr hz
      rcases h.kept_adds ht with ⟨g, _, _, r⟩ | ⟨hz', r⟩
      · simpa using RelT.nonzero h r
      · rw [hlow r] at hr
        simp only [Option.some.injEq] at hr
        rw [hr]; exact hz
    · intro t u t' ht hu hr1 hr2 hz
      rcases h.kept_adds ht with ⟨g, hA, hR, r⟩ | ⟨hz', r⟩
      · obtain ⟨t1, e1, n1⟩ := convT hA hR ht r
        rw [hr1] at e1
        simp only [Option.some.injEq] at e1
        subst e1
        rcases h.kept_adds hu with ⟨g', hA', hR', r'⟩ | ⟨hz', r'⟩
        · obtain ⟨t2, e2, n2⟩ := convT hA' hR' hu r'
          rw [hr2] at e2
          simp only [Option.some.injEq] at e2
          subst e2
          have := newInj n1 n2
          subst this
          exact RelT.fun h r r'
        · rw [hlow r'] at hr2
          simp only [Option.some.injEq] at hr2
          subst hr2
          exact absurd (by simpa using hz) hz'
      · rw [hlow r] at hr1
        simp only [Option.some.injEq] at hr1
        subst hr1
        exact absurd (by simpa using hz) hz'
  have nodupRs : (rs2.filter (fun t => decide t.Nonzero)).Nodup := by
    refine forall₂_filter_nodup (q := fun t => decide t.Nonzero) frs ?_ ?_ (keptRems_nodup b)
    · intro t t' ht hr hz
      rw [hlow (h.kept_rems ht).2] at hr
      simp only [Option.some.injEq] at hr
      rw [hr]; exact hz
    · intro t u t' ht hu hr1 hr2 hz
      rw [hlow (h.kept_rems ht).2] at hr1
      rw [hlow (h.kept_rems hu).2] at hr2
      simp only [Option.some.injEq] at hr1 hr2
      rw [hr1, hr2]
  have sortIsort : ∀ {l : List Triple}, (l.filter (fun t => decide t.Nonzero)).Nodup →
      SortedLt ((isort l).filter (fun t => decide t.Nonzero)) := by
    intro l hl
    apply sortedLt_of_le_nodup
    · exact List.Pairwise.filter _ (isort_sorted l)
    · exact ((isort_perm l).filter _).nodup_iff.2 hl
  refine ⟨nodesE.map Prod.fst, predsE.map Prod.fst, valuesE.map Prod.fst, isort as2, isort rs2,
    ?_, hsn, hsp, hsv, ?_, ?_, ?_, sortIsort nodupAs, sortIsort nodupRs, ?_, ?_⟩
  · have e1 : Stack.nvCount S + nodesE.length + 1 = Stack.nvCount S + 1 + nodesE.length := by omega
    unfold SimpleBuilder.prepare
    simp only [h.parent, hnoop, hmark, hcol, hpcol, Option.bind_eq_bind, Option.bind_some]
    rw [hfill1]
    simp only [Option.bind_some]
    rw [show Stack.nvCount S + (sortEntries (pickNodes entries)).length + 1 =
      Stack.nvCount S + 1 + nodesE.length from e1, hfill2]
    simp only [Option.bind_some]
    rw [hpfill]
    simp only [Option.bind_some, hras, hrrs]
    rfl
  · intro k
    have hmk : k ∈ nodesE.map Prod.fst ↔ ∃ i, (Obj.node k, i) ∈ entries := by
      rw [List.mem_map]
      constructor
      · rintro ⟨⟨k', i⟩, hm, rfl⟩
        exact ⟨i, mem_pickNodes.1 ((sortEntries_perm _).mem_iff.1 hm)⟩
      · rintro ⟨i, hm⟩
        exact ⟨(k, i), (sortEntries_perm _).mem_iff.2 (mem_pickNodes.2 hm), rfl⟩
    rw [hmk]
    unfold NewNV
    rw [objectId_eq hS.counts]
    constructor
    · rintro ⟨i, hm⟩
      obtain ⟨h1, h2, h3⟩ := (hent _ i).1 hm
      exact ⟨(h.nv.rel_high (Or.inl h1) (by omega)).2, (usedNV _ i h1 h2).1 h3⟩
    · rintro ⟨h1, h2⟩
      obtain ⟨g, hA, hR, hg⟩ := h2
      obtain ⟨t, ht, r⟩ := h.mem_keptAdds hA hR
      have key : ∀ {i}, Rel (nvLevels S) b.nvMap (Obj.node k) i → ∃ i, (Obj.node k, i) ∈ entries := by
        intro i hr
        rcases hr with hr | hr
        · have hi : Stack.nvCount S < i := by
            rcases h.nv.entry _ i hr with q | q
            · rw [h1] at q; simp at q
            · omega
          exact ⟨i, (hent _ i).2 ⟨hr, hi, (usedNV _ i hr hi).2 ⟨g, hA, hR, hg⟩⟩⟩
        · rw [h1] at hr; simp at hr
      rcases hg with hg | hg
      · exact key (hg ▸ r.1)
      · exact key (hg ▸ r.2.2)
  · intro k
    have hmk : k ∈ valuesE.map Prod.fst ↔ ∃ i, (Obj.value k, i) ∈ entries := by
      rw [List.mem_map]
      constructor
      · rintro ⟨⟨k', i⟩, hm, rfl⟩
        exact ⟨i, mem_pickValues.1 ((sortEntries_perm _).mem_iff.1 hm)⟩
      · rintro ⟨i, hm⟩
        exact ⟨(k, i), (sortEntries_perm _).mem_iff.2 (mem_pickValues.2 hm), rfl⟩
    rw [hmk]
    unfold NewNV
    rw [objectId_eq hS.counts]
    constructor
    · rintro ⟨i, hm⟩
      obtain ⟨h1, h2, h3⟩ := (hent _ i).1 hm
      exact ⟨(h.nv.rel_high (Or.inl h1) (by omega)).2, (usedNV _ i h1 h2).1 h3⟩
    · rintro ⟨h1, h2⟩
      obtain ⟨g, hA, hR, hg⟩ := h2
      obtain ⟨t, ht, r⟩ := h.mem_keptAdds hA hR
      have key : ∀ {i}, Rel (nvLevels S) b.nvMap (Obj.value k) i → ∃ i, (Obj.value k, i) ∈ entries := by
        intro i hr
        rcases hr with hr | hr
        · have hi : Stack.nvCount S < i := by
            rcases h.nv.entry _ i hr with q | q
            · rw [h1] at q; simp at q
            · omega
          exact ⟨i, (hent _ i).2 ⟨hr, hi, (usedNV _ i hr hi).2 ⟨g, hA, hR, hg⟩⟩⟩
        · rw [h1] at hr; simp at hr
      rcases hg with hg | hg
      · exact key (hg ▸ r.1)
      · exact key (hg ▸ r.2.2)
  · intro p
    have hmk : p ∈ predsE.map Prod.fst ↔ ∃ i, (p, i) ∈ pentries := by
      rw [List.mem_map]
      constructor
      · rintro ⟨⟨k', i⟩, hm, rfl⟩
        exact ⟨i, (hPmem _ _).1 hm⟩
      · rintro ⟨i, hm⟩
        exact ⟨(p, i), (hPmem _ _).2 hm, rfl⟩
    rw [hmk]
    unfold NewP
    rw [predId_eq hS.counts]
    constructor
    · rintro ⟨i, hm⟩
      obtain ⟨h1, h2, h3⟩ := (hpent _ i).1 hm
      exact ⟨(h.p.rel_high (Or.inl h1) (by omega)).2, (usedP _ i h1 h2).1 h3⟩
    · rintro ⟨h1, h2⟩
      obtain ⟨g, hA, hR, hg⟩ := h2
      obtain ⟨t, ht, r⟩ := h.mem_keptAdds hA hR
      subst hg
      rcases r.2.1 with hr | hr
      · have hi : Stack.pCount S < t.p := by
          rcases h.p.entry _ _ hr with q | q
          · rw [h1] at q; simp at q
          · omega
        exact ⟨t.p, (hpent _ _).2 ⟨hr, hi, (usedP _ _ hr hi).2 ⟨g, hA, hR, rfl⟩⟩⟩
      · rw [h1] at hr; simp at hr
  · intro t hz
    rw [mem_isort]
    constructor
    · intro ht
      obtain ⟨u, hu, hr⟩ := (forall₂_mem fas).2 t ht
      rcases h.kept_adds hu with ⟨g, hA, hR, r⟩ | ⟨hz', r⟩
      · obtain ⟨t', e, n⟩ := convT hA hR hu r
        rw [hr] at e
        simp only [Option.some.injEq] at e
        subst e
        exact ⟨g, hA, hR, n⟩
      · rw [hlow r] at hr
        simp only [Option.some.injEq] at hr
        subst hr
        exact absurd hz hz'
    · rintro ⟨g, hA, hR, n⟩
      obtain ⟨u, hu, r⟩ := h.mem_keptAdds hA hR
      obtain ⟨t', e, n'⟩ := convT hA hR hu r
      obtain ⟨w, hw, hr⟩ := (forall₂_mem fas).1 u hu
      rw [e] at hr
      simp only [Option.some.injEq] at hr
      subst hr
      rw [newFun n n']
      exact hw
  · intro t hz
    rw [mem_isort]
    constructor
    · intro ht
      obtain ⟨u, hu, hr⟩ := (forall₂_mem frs).2 t ht
      obtain ⟨h1, h2⟩ := h.kept_rems hu
      rw [hlow h2] at hr
      simp only [Option.some.injEq] at hr
      subst hr
      rcases h1 with ⟨g, hR, hA, r⟩ | h1
      · refine ⟨g, hR, hA, ?_, ?_, ?_⟩
        · rw [objectId_eq hS.counts]; exact h.nv.rel_low r.1 (by omega)
        · rw [predId_eq hS.counts]; exact h.p.rel_low r.2.1 (by omega)
        · rw [objectId_eq hS.counts]; exact h.nv.rel_low r.2.2 (by omega)
      · exact absurd hz h1
    · rintro ⟨g, hR, hA, hres⟩
      have hu := h.mem_keptRems hS hR hA hres
      obtain ⟨w, hw, hr⟩ := (forall₂_mem frs).1 t hu
      rw [hlow (h.kept_rems hu).2] at hr
      simp only [Option.some.injEq] at hr
      subst hr
      exact hw

end Verif
