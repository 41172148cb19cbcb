import Verif.Lemmas.LevelEntries
import Verif.Lemmas.ChangeSpec

/-!
Rollups: the layer that is written gives the same answers as the layers it replaces.
-/

set_option linter.unusedSectionVars false
set_option linter.unusedVariables false

namespace Verif

open SimpleBuilder

variable {K V : Type}

theorem dictBuild_sorted {α : Type} [LinearOrder α] {l : List α} (h : SortedLt l) :
    dictBuild l = some l := by
  have e : l.Pairwise (· < ·) := h
  unfold dictBuild
  simp only [e, if_true]

/-! ### Splitting a stack -/

theorem StackRep.append {A B : List (LayerData K V)} {Ps Ns Ps' Ns' : List (List Triple)}
    (h : StackRep A Ps Ns) (h' : StackRep B Ps' Ns') : StackRep (A ++ B) (Ps ++ Ps') (Ns ++ Ns') := by
  induction h with
  | nil => exact h'
  | cons g1 g2 _ ih => exact .cons g1 g2 ih

theorem StackRep.split {A B : List (LayerData K V)} : ∀ {Qs Ms : List (List Triple)},
    StackRep (A ++ B) Qs Ms → ∃ Ps Ns Ps' Ns', Qs = Ps ++ Ps' ∧ Ms = Ns ++ Ns' ∧
      StackRep A Ps Ns ∧ StackRep B Ps' Ns' := by
  induction A with
  | nil => intro Qs Ms h; exact ⟨[], [], Qs, Ms, rfl, rfl, .nil, h⟩
  | cons d A ih =>
    intro Qs Ms h
    rw [List.cons_append] at h
    cases h with
    | cons g1 g2 g3 =>
      rename_i P N _ _
      obtain ⟨Ps, Ns, Ps', Ns', rfl, rfl, h1, h2⟩ := ih g3
      exact ⟨P :: Ps, N :: Ns, Ps', Ns', rfl, rfl, .cons g1 g2 h1, h2⟩

theorem StackOk.split [LinearOrder K] [LinearOrder V] {A B : List (LayerData K V)} :
    ∀ {Qs Ms : List (List Triple)}, StackOk (A ++ B) Qs Ms →
    ∃ Ps Ns Ps' Ns', Qs = Ps ++ Ps' ∧ Ms = Ns ++ Ns' ∧ StackRep A Ps Ns ∧ StackOk B Ps' Ns' := by
  induction A with
  | nil => intro Qs Ms h; exact ⟨[], [], Qs, Ms, rfl, rfl, .nil, h⟩
  | cons d A ih =>
    intro Qs Ms h
    rw [List.cons_append] at h
    obtain ⟨P, N, Qs', Ms', rfl, rfl, h0⟩ := h.tail
    obtain ⟨Ps, Ns, Ps', Ns', rfl, rfl, h1, h2⟩ := ih h0
    refine ⟨P :: Ps, N :: Ns, Ps', Ns', rfl, rfl, ?_, h2⟩
    cases h.rep with
    | cons g1 g2 _ => exact .cons g1 g2 h1

/-! ### Changes -/

theorem net_count {t : Triple} {Ps Ns : List (List Triple)} : ∀ {PT NT : List (List Triple)},
    PT.length = NT.length → (∀ P ∈ PT, P.Nodup) → (∀ N ∈ NT, N.Nodup) →
    wellFormed (PT ++ Ps) (NT ++ Ns) t →
    (PT.flatten.count t = NT.flatten.count t ∧
      (present Ps Ns t ↔ present (PT ++ Ps) (NT ++ Ns) t)) ∨
    (PT.flatten.count t = NT.flatten.count t + 1 ∧ ¬ present Ps Ns t ∧
      present (PT ++ Ps) (NT ++ Ns) t) ∨
    (PT.flatten.count t + 1 = NT.flatten.count t ∧ present Ps Ns t ∧
      ¬ present (PT ++ Ps) (NT ++ Ns) t)
  | [], [], _, _, _, _ => Or.inl ⟨rfl, Iff.rfl⟩
  | [], _ :: _, h, _, _, _ => by simp at h
  | _ :: _, [], h, _, _, _ => by simp at h
  | P :: PT, N :: NT, hl, hP, hN, hw => by
    have ih := net_count (t := t) (Ps := Ps) (Ns := Ns) (PT := PT) (NT := NT) (by simpa using hl)
      (fun P' h => hP P' (by simp [h])) (fun P' h => hN P' (by simp [h]))
      hw.2.2
    simp only [List.cons_append, wellFormed] at hw
    obtain ⟨w1, w2, _⟩ := hw
    have c1 : P.count t = if t ∈ P then 1 else 0 := (hP P (by simp)).count
    have c2 : N.count t = if t ∈ N then 1 else 0 := (hN N (by simp)).count
    simp only [List.flatten_cons, List.count_append, List.cons_append, present, c1, c2]
    by_cases hp : t ∈ P <;> by_cases hn : t ∈ N <;> simp only [hp, hn, if_true, if_false] <;>
      simp only [hp, hn, true_imp_iff, false_imp_iff] at w1 w2
    · exact absurd w2 w1
    · rcases ih with ⟨i1, i2⟩ | ⟨i1, i2, i3⟩ | ⟨i1, i2, i3⟩
      · right; left
        exact ⟨by omega, fun h => w1 (i2.1 h), Or.inl trivial⟩
      · exact absurd i3 w1
      · left
        exact ⟨by omega, by simp [i2]⟩
    · rcases ih with ⟨i1, i2⟩ | ⟨i1, i2, i3⟩ | ⟨i1, i2, i3⟩
      · right; right
        exact ⟨by omega, i2.2 w2, by simp⟩
      · left
        exact ⟨by omega, by simp [i2]⟩
      · exact absurd w2 i3
    · rcases ih with ⟨i1, i2⟩ | ⟨i1, i2, i3⟩ | ⟨i1, i2, i3⟩
      · left; exact ⟨by omega, by simp [i2]⟩
      · right; left; exact ⟨by omega, i2, by simp [i3]⟩
      · right; right; exact ⟨by omega, i2, by simp [i3]⟩

namespace Rollup

theorem changeFuel_lt {T : List (LayerData K V)} {Ps Ns : List (List Triple)}
    (h : StackRep T Ps Ns) : total Ps + total Ns < changeFuel T := by
  induction h with
  | nil => simp [total, changeFuel]
  | @cons d S P N Ps Ns h1 h2 h3 ih =>
    have hP := h1.length_le
    simp only [total, changeFuel, List.map_cons, List.sum_cons] at ih ⊢
    cases hd : d.neg with
    | none =>
      rw [hd] at h2
      simp only [NegStored] at h2
      subst h2
      simp only [List.length_nil]
      omega
    | some x =>
      rw [hd] at h2
      have hN := Stored.length_le h2
      simp only
      omega

/-- The changes of some layers. -/
theorem changes_spec {T : List (LayerData K V)} {Ps Ns : List (List Triple)}
    (h : StackRep T Ps Ns) :
    ∃ cs, changes T = some cs ∧
      (∀ u, cs.count (.addition, u) = Ps.flatten.count u - Ns.flatten.count u ∧
        cs.count (.removal, u) = Ns.flatten.count u - Ps.flatten.count u) ∧
      cs.Pairwise (fun a b => a.2 ≤ b.2) := by
  obtain ⟨cs, h1, h2⟩ := Merged.changes_spec (I := subjOps) (m := stackMerged T)
    (fuel := changeFuel T) h.subj_positives h.subj_negatives (changeFuel_lt h)
  obtain ⟨g1, g2⟩ := h2.spec h.sortedP h.sortedN
  exact ⟨cs, h1, g1, g2⟩

theorem count_pick (c : TripleChange) (u : Triple) (cs : List (TripleChange × Triple)) :
    ((cs.filter (fun q => q.1 = c)).map Prod.snd).count u = cs.count (c, u) := by
  induction cs with
  | nil => rfl
  | cons q cs ih =>
    obtain ⟨c', v⟩ := q
    by_cases hc : c' = c
    · subst hc
      rw [List.filter_cons_of_pos (by simp), List.map_cons, List.count_cons, List.count_cons, ih]
      simp
    · rw [List.filter_cons_of_neg (by simpa using hc), List.count_cons, ih]
      simp [hc]

theorem sorted_pick (c : TripleChange) {cs : List (TripleChange × Triple)}
    (h : cs.Pairwise (fun a b => a.2 ≤ b.2))
    (h1 : ∀ u, cs.count (c, u) ≤ 1) : SortedLt ((cs.filter (fun q => q.1 = c)).map Prod.snd) := by
  apply sortedLt_of_le_nodup
  · rw [List.pairwise_map]
    exact h.filter _
  · rw [List.nodup_iff_count_le_one]
    intro u
    rw [count_pick]; exact h1 u

/-- The additions and removals of some layers on top of others are the exact difference. -/
theorem changes_net {T T' : List (LayerData K V)} {PT NT PT' NT' Ps Ns : List (List Triple)}
    (h : StackRep T PT NT) (h' : StackRep T' PT' NT')
    (hpp : ∀ u, PT'.flatten.count u = PT.flatten.count u)
    (hnn : ∀ u, NT'.flatten.count u = NT.flatten.count u)
    (hw : ∀ t, wellFormed (PT ++ Ps) (NT ++ Ns) t) :
    ∃ cs, changes T' = some cs ∧ SortedLt (additions cs) ∧ SortedLt (removals cs) ∧
      (∀ t, t ∈ additions cs ↔ present (PT ++ Ps) (NT ++ Ns) t ∧ ¬ present Ps Ns t) ∧
      (∀ t, t ∈ removals cs ↔ ¬ present (PT ++ Ps) (NT ++ Ns) t ∧ present Ps Ns t) := by
  obtain ⟨cs, h1, h2, h3⟩ := changes_spec h'
  have key := fun t => net_count (t := t) (Ps := Ps) (Ns := Ns) h.length_eq
    (fun P hP => (h.sortedP P hP).nodup) (fun P hP => (h.sortedN P hP).nodup) (hw t)
  have hca : ∀ u, cs.count (.addition, u) ≤ 1 := by
    intro u
    rw [(h2 u).1, hpp, hnn]
    rcases key u with ⟨i1, _⟩ | ⟨i1, _⟩ | ⟨i1, _⟩ <;> omega
  have hcr : ∀ u, cs.count (.removal, u) ≤ 1 := by
    intro u
    rw [(h2 u).2, hpp, hnn]
    rcases key u with ⟨i1, _⟩ | ⟨i1, _⟩ | ⟨i1, _⟩ <;> omega
  refine ⟨cs, h1, sorted_pick _ h3 hca, sorted_pick _ h3 hcr, ?_, ?_⟩
  · intro t
    rw [← List.count_pos_iff]
    unfold additions
    rw [count_pick, (h2 t).1, hpp, hnn]
    rcases key t with ⟨i1, i2⟩ | ⟨i1, i2, i3⟩ | ⟨i1, i2, i3⟩
    · rw [i2]; constructor
      · omega
      · intro hh; exact absurd hh.1 hh.2
    · constructor
      · intro _; exact ⟨i3, i2⟩
      · omega
    · constructor
      · omega
      · intro hh; exact absurd hh.1 i3
  · intro t
    rw [← List.count_pos_iff]
    unfold removals
    rw [count_pick, (h2 t).2, hpp, hnn]
    rcases key t with ⟨i1, i2⟩ | ⟨i1, i2, i3⟩ | ⟨i1, i2, i3⟩
    · rw [i2]; constructor
      · omega
      · intro hh; exact absurd hh.2 hh.1
    · constructor
      · omega
      · intro hh; exact absurd i3 hh.1
    · constructor
      · intro _; exact ⟨i3, i2⟩
      · omega

/-! ### Dictionaries -/

variable [LinearOrder K] [LinearOrder V]

theorem merge_eq {α : Type} [LinearOrder α] {E : List (α × Nat)} {ds : List (List α)}
    (hn : (E.map Prod.fst).Nodup) (he : E.map Prod.fst = ds.flatten) :
    mergeDicts ds = some ((sortEntries E).map Prod.fst) := by
  have h1 := sortEntries_sorted hn
  have : isort ds.flatten = (sortEntries E).map Prod.fst := by
    refine SortedLt.ext (isort_sortedLt (by rw [← he]; exact hn)) h1 ?_
    intro x
    rw [mem_isort, ← he]
    exact (((sortEntries_perm E).map Prod.fst).mem_iff).symm
  unfold mergeDicts
  rw [this, dictBuild_sorted h1]

theorem dictionaries_spec (ls : List (DictLevel K V)) (hn : LvOk (nvLv ls)) (hp : LvOk (pLv ls)) :
    ∃ l, dictionaries ls = some l ∧ SortedLt l.nodes ∧ SortedLt l.preds ∧ SortedLt l.values ∧
      IdMapOk l.nvMap (l.nodes.length + l.values.length) ∧ IdMapOk l.pMap l.preds.length ∧
      l.nodes.length + l.values.length = lvCount (nvLv ls) ∧ l.preds.length = lvCount (pLv ls) ∧
      (∀ o, lvId (nvLv [l]) o = lvId (nvLv ls) o) ∧ (∀ q, lvId (pLv [l]) q = lvId (pLv ls) q) := by
  obtain ⟨N, n1, n2, n3, n4⟩ := nodeEntries_spec 0 ls hn
  obtain ⟨W, v1, v2, v3, v4⟩ := valueEntries_spec 0 ls hn
  obtain ⟨P, p1, p2, p3, p4⟩ := predEntries_spec 0 ls hp
  have sn := sortEntries_sorted n2
  have sv := sortEntries_sorted v2
  have sp := sortEntries_sorted p2
  let Q : List (Obj K V × Nat) := (sortEntries N).map (fun q => (Obj.node q.1, q.2)) ++
    (sortEntries W).map (fun q => (Obj.value q.1, q.2))
  have hQk : Q.map Prod.fst = ((sortEntries N).map Prod.fst).map Obj.node ++
      ((sortEntries W).map Prod.fst).map Obj.value := by
    simp [Q, List.map_map, Function.comp_def]
  have hQm : Q.map (fun q => q.2 - 1) = (sortEntries N).map (fun q => q.2 - 1) ++
      (sortEntries W).map (fun q => q.2 - 1) := by
    simp [Q, List.map_map, Function.comp_def]
  have hQn : (Q.map Prod.fst).Nodup := by
    rw [hQk, List.nodup_append]
    refine ⟨List.Nodup.map (fun a b => obj_node_inj a b) sn.nodup,
      List.Nodup.map (fun a b => obj_value_inj a b) sv.nodup, ?_⟩
    intro a ha b hb hab
    obtain ⟨k, _, rfl⟩ := List.mem_map.1 ha
    obtain ⟨v, _, rfl⟩ := List.mem_map.1 hb
    cases hab
  have hQ : ∀ o i, (o, i) ∈ Q ↔ lvId (nvLv ls) o = some (some i) := by
    intro o i
    simp only [Q, List.mem_append, List.mem_map, Prod.mk.injEq, Prod.exists]
    cases o with
    | node k =>
      constructor
      · rintro (⟨a, j, h1, h2, h3⟩ | ⟨a, j, h1, h2, h3⟩)
        · cases h2; subst h3
          obtain ⟨x, hx, e⟩ := (n4 _ j).1 ((sortEntries_perm N).mem_iff.1 h1)
          rw [hx, e]; rfl
        · cases h2
      · intro hh
        exact Or.inl ⟨k, i, (sortEntries_perm N).mem_iff.2 ((n4 k i).2 ⟨i, hh, rfl⟩), rfl, rfl⟩
    | value k =>
      constructor
      · rintro (⟨a, j, h1, h2, h3⟩ | ⟨a, j, h1, h2, h3⟩)
        · cases h2
        · cases h2; subst h3
          obtain ⟨x, hx, e⟩ := (v4 _ j).1 ((sortEntries_perm W).mem_iff.1 h1)
          rw [hx, e]; rfl
      · intro hh
        exact Or.inr ⟨k, i, (sortEntries_perm W).mem_iff.2 ((v4 k i).2 ⟨i, hh, rfl⟩), rfl, rfl⟩
  obtain ⟨c1, c2, c3⟩ := lv_collapse hn hQn hQ
  obtain ⟨d1, d2, d3⟩ := lv_collapse (Q := sortEntries P) hp sp.nodup (by
    intro a i
    rw [(sortEntries_perm P).mem_iff, p4]
    constructor
    · rintro ⟨x, hx, e⟩; rw [hx, e]; rfl
    · intro hh; exact ⟨i, hh, rfl⟩)
  have hlen : Q.length = ((sortEntries N).map Prod.fst).length +
      ((sortEntries W).map Prod.fst).length := by simp [Q]
  refine ⟨⟨(sortEntries N).map Prod.fst, (sortEntries P).map Prod.fst, (sortEntries W).map Prod.fst,
    some (Q.map (fun q => q.2 - 1)), some ((sortEntries P).map (fun q => q.2 - 1))⟩, ?_, sn, sp, sv,
    ?_, ?_, ?_, ?_, ?_, ?_⟩
  · unfold dictionaries constructIdmaps
    rw [merge_eq n2 n3, merge_eq p2 p3, merge_eq v2 v3, n1, v1, p1, hQm]
    rfl
  · rw [← hlen]; exact c1
  · simpa using d1
  · rw [← hlen]; exact c2
  · simpa using d2
  · intro o
    rw [← c3 o, hQk]; rfl
  · intro q
    rw [← d3 q]; rfl

/-- One layer with collected dictionaries in place of the layers `T` on top of `S`. -/
theorem collapse_ok {T S : List (LayerData K V)} {Qs Ms Ps Ns : List (List Triple)}
    (h : StackOk (T ++ S) Qs Ms) (hS : StackOk S Ps Ns) {l : DictLevel K V}
    (hl : dictionaries (T.map (·.dictLevel)) = some l) {d : LayerData K V}
    (hd : d.nodes = l.nodes ∧ d.preds = l.preds ∧ d.values = l.values ∧ d.nvMap = l.nvMap ∧
      d.pMap = l.pMap ∧ d.parentNV = Stack.nvCount S ∧ d.parentP = Stack.pCount S)
    {P N : List Triple} (hP : Stored d.pos P) (hN : NegStored d.neg N)
    (hPm : ∀ t, t ∈ P ↔ present Qs Ms t ∧ ¬ present Ps Ns t)
    (hNm : ∀ t, t ∈ N ↔ ¬ present Qs Ms t ∧ present Ps Ns t) :
    StackOk (d :: S) (P :: Ps) (N :: Ns) ∧ Same (T ++ S) (d :: S) := by
  obtain ⟨e1, e2, e3, e4, e5, e6, e7⟩ := hd
  have hnv := h.nv
  have hpr := h.pr
  have hnv' : nvLevels (T ++ S) = nvLevels T ++ nvLevels S := by simp [nvLevels]
  have hpr' : pLevels (T ++ S) = pLevels T ++ pLevels S := by simp [pLevels]
  rw [hnv'] at hnv
  rw [hpr'] at hpr
  obtain ⟨l', g1, g2, g3, g4, g5, g6, g7, g8, g9, g10⟩ := dictionaries_spec (T.map (·.dictLevel))
    (by rw [nvLv_dictLevel]; exact hnv.append.1) (by rw [pLv_dictLevel]; exact hpr.append.1)
  rw [hl] at g1
  cases g1
  rw [nvLv_dictLevel] at g7 g9
  rw [pLv_dictLevel] at g8 g10
  have objs : d.objs = l.nodes.map Obj.node ++ l.values.map Obj.value := by
    unfold LayerData.objs; rw [e1, e3]
  have objl : d.objs.length = l.nodes.length + l.values.length := by rw [objs]; simp
  have nod : d.objs.Nodup := by
    rw [objs, List.nodup_append]
    refine ⟨List.Nodup.map (fun a b => obj_node_inj a b) g2.nodup,
      List.Nodup.map (fun a b => obj_value_inj a b) g4.nodup, ?_⟩
    intro a ha b hb hab
    obtain ⟨k, _, rfl⟩ := List.mem_map.1 ha
    obtain ⟨v, _, rfl⟩ := List.mem_map.1 hb
    cases hab
  obtain ⟨c1, c2, c3⟩ := lv_collapse_append (e := (d.objs, d.nvMap)) hnv
    (by rw [e4, objl]; exact g5) nod (by rw [objl]; exact g7)
    (by intro a; rw [← g9]; show lvId [(d.objs, d.nvMap)] a = lvId [(_, l.nvMap)] a; rw [objs, e4])
  obtain ⟨b1, b2, b3⟩ := lv_collapse_append (e := (d.preds, d.pMap)) hpr
    (by rw [e5, e2]; exact g6) (by rw [e2]; exact g3.nodup) (by rw [e2]; exact g8)
    (by intro a; rw [← g10]; show lvId [(d.preds, d.pMap)] a = lvId [(_, l.pMap)] a; rw [e2, e5])
  have hc : CountsOk (d :: S) := ⟨e6, e7, hS.counts⟩
  have hnc : Stack.nvCount (d :: S) = Stack.nvCount (T ++ S) := by
    rw [nvCount_eq hc, h.nvCount, hnv']; exact c2
  have hpc : Stack.pCount (d :: S) = Stack.pCount (T ++ S) := by
    rw [pCount_eq hc, h.pCount, hpr']; exact b2
  have hok : StackOk (d :: S) (P :: Ps) (N :: Ns) := by
    refine hS.cons hP hN (fun t ht => ((hPm t).1 ht).2) (fun t ht => ((hNm t).1 ht).2) ⟨e6, e7⟩
      ⟨by rw [e1]; exact g2, by rw [e2]; exact g3, by rw [e3]; exact g4⟩ ?_ ?_ ?_
      (by rw [e4, e1, e3]; exact g5) (by rw [e5, e2]; exact g6) ?_
    · intro k hk e he hke
      exact c1.2.1 (.node k) (by simp [LayerData.objs, hk]) (e.objs, e.nvMap)
        (List.mem_map.2 ⟨e, he, rfl⟩) (by simp [LayerData.objs, hke])
    · intro k hk e he hke
      exact c1.2.1 (.value k) (by simp [LayerData.objs, hk]) (e.objs, e.nvMap)
        (List.mem_map.2 ⟨e, he, rfl⟩) (by simp [LayerData.objs, hke])
    · intro k hk e he hke
      exact b1.2.1 k hk (e.preds, e.pMap) (List.mem_map.2 ⟨e, he, rfl⟩) hke
    · intro t ht
      rw [hnc, hpc]
      exact h.present_range ((hPm t).1 ht).1
  refine ⟨hok, ?_, ?_, hnc.symm, hpc.symm, ?_⟩
  · intro o
    rw [objectId_eq h.counts, objectId_eq hc, hnv']
    exact (c3 o).symm
  · intro o
    rw [predId_eq h.counts, predId_eq hc, hpr']
    exact (b3 o).symm
  · intro t
    obtain ⟨b, hb, hbt⟩ := h.exists_total t
    obtain ⟨b', hb', hbt'⟩ := hok.exists_total t
    rw [hb, hb']
    congr 1
    rw [Bool.eq_iff_iff, hbt, hbt']
    simp only [present, hPm, hNm]
    tauto

/-! ### The three rollups -/

theorem deltaRollup_spec {S : List (LayerData K V)} {Ps Ns : List (List Triple)}
    (h : StackOk S Ps Ns) :
    ∃ d P, deltaRollup S = some d ∧ StackOk [d] [P] [[]] ∧ Same S [d] := by
  obtain ⟨ts, t1, t2, t3⟩ := h.rep.triples h.wf
  obtain ⟨x, hx, hst, _⟩ := buildIndex_stored false (ts := ts)
    (fun t ht => h.present_nonzero ((t3 t).1 ht)) t2
  obtain ⟨l, g1, _⟩ := dictionaries_spec (S.map (·.dictLevel))
    (by rw [nvLv_dictLevel]; exact h.nv) (by rw [pLv_dictLevel]; exact h.pr)
  have := collapse_ok (T := S) (S := []) (Ps := []) (Ns := []) (by simpa using h) StackOk.nil g1
    (d := { nodes := l.nodes, preds := l.preds, values := l.values, nvMap := l.nvMap
            pMap := l.pMap, pos := x }) ⟨rfl, rfl, rfl, rfl, rfl, rfl, rfl⟩ (P := ts) (N := [])
    hst (by simp [NegStored]) (by intro t; simp [t3, present]) (by simp [present])
  rw [List.append_nil] at this
  refine ⟨_, ts, ?_, this.1, this.2⟩
  unfold deltaRollup
  rw [g1, t1]
  simp only [Option.bind_eq_bind, Option.bind_some, hx]
  rfl

theorem count_flatten_comm (A B : List (List Triple)) (u : Triple) :
    (B ++ A).flatten.count u = (A ++ B).flatten.count u := by
  simp [List.count_append, Nat.add_comm]

theorem writeDelta_spec {T T' S : List (LayerData K V)} {Qs Ms Ps Ns : List (List Triple)}
    (h : StackOk (T ++ S) Qs Ms) (hT : ∃ A B, T = A ++ B ∧ T' = B ++ A) {l : DictLevel K V}
    (hl : dictionaries (T.map (·.dictLevel)) = some l) :
    ∃ cs d Ps Ns P N, changes T' = some cs ∧ writeDelta l cs S = some d ∧
      StackOk (d :: S) (P :: Ps) (N :: Ns) ∧ StackOk S Ps Ns ∧ Same (T ++ S) (d :: S) := by
  obtain ⟨A, B, rfl, rfl⟩ := hT
  obtain ⟨PT, NT, Ps, Ns, rfl, rfl, hr, hS⟩ := h.split
  obtain ⟨PA, NA, PB, NB, rfl, rfl, hA, hB⟩ := hr.split
  obtain ⟨cs, h1, h2, h3, h4, h5⟩ := changes_net hr (hB.append hA)
    (fun u => count_flatten_comm PA PB u) (fun u => count_flatten_comm NA NB u) h.wf
  obtain ⟨x, hx, hst, _⟩ := buildIndex_stored true (ts := additions cs)
    (fun t ht => h.present_nonzero ((h4 t).1 ht).1) h2
  obtain ⟨y, hy, hst', _⟩ := buildIndex_stored true (ts := removals cs)
    (fun t ht => hS.present_nonzero ((h5 t).1 ht).2) h3
  have := collapse_ok h hS hl
    (d := { nodes := l.nodes, preds := l.preds, values := l.values, nvMap := l.nvMap
            pMap := l.pMap, parentNV := Stack.nvCount S, parentP := Stack.pCount S
            pos := x, neg := some y }) ⟨rfl, rfl, rfl, rfl, rfl, rfl, rfl⟩
    hst hst' h4 h5
  refine ⟨cs, _, Ps, Ns, additions cs, removals cs, h1, ?_, this.1, hS, this.2⟩
  unfold writeDelta
  rw [hx, hy]
  rfl

/-- The precise rollup, when the loaded layers above the bound have matching id maps. -/
theorem deltaRollupUpto_spec {mem disk S : List (LayerData K V)} {Qs Ms : List (List Triple)}
    (h : StackOk (mem ++ disk ++ S) Qs Ms) (hm : ∀ d ∈ mem, d.pMap = d.nvMap) :
    ∃ d, deltaRollupUpto mem disk S = some d ∧ StackGood (d :: S) ∧
      Same (mem ++ disk ++ S) (d :: S) := by
  have hnv := h.nv
  have hpr := h.pr
  rw [show nvLevels (mem ++ disk ++ S) = nvLevels (mem ++ disk) ++ nvLevels S by simp [nvLevels]] at hnv
  rw [show pLevels (mem ++ disk ++ S) = pLevels (mem ++ disk) ++ pLevels S by simp [pLevels]] at hpr
  obtain ⟨l, g1, _⟩ := dictionaries_spec ((mem ++ disk).map (·.dictLevel))
    (by rw [nvLv_dictLevel]; exact hnv.append.1) (by rw [pLv_dictLevel]; exact hpr.append.1)
  obtain ⟨cs, d, Ps, Ns, P, N, h1, h2, h3, h4, h5⟩ := writeDelta_spec (T' := disk ++ mem)
    (Ps := []) (Ns := []) h ⟨mem, disk, rfl, rfl⟩ g1
  refine ⟨d, ?_, ⟨_, _, h3⟩, h5⟩
  have : mem.map (·.dictLevelMem) = mem.map (·.dictLevel) := by
    apply List.map_congr_left
    intro e he
    simp [LayerData.dictLevelMem, LayerData.dictLevel, hm e he]
  unfold deltaRollupUpto
  rw [this, ← List.map_append, g1]
  simp only [Option.bind_eq_bind, Option.bind_some, h1, h2]

/-- The imprecise rollup, when it goes down to the layer it was asked for. -/
theorem impreciseDeltaRollupUpto_spec {mem S : List (LayerData K V)} {Qs Ms : List (List Triple)}
    (h : StackOk (mem ++ S) Qs Ms) :
    ∃ d, impreciseDeltaRollupUpto mem S = some d ∧ StackGood (d :: S) ∧
      Same (mem ++ S) (d :: S) := by
  have hnv := h.nv
  have hpr := h.pr
  rw [show nvLevels (mem ++ S) = nvLevels mem ++ nvLevels S by simp [nvLevels]] at hnv
  rw [show pLevels (mem ++ S) = pLevels mem ++ pLevels S by simp [pLevels]] at hpr
  obtain ⟨l, g1, _⟩ := dictionaries_spec (mem.map (·.dictLevel))
    (by rw [nvLv_dictLevel]; exact hnv.append.1) (by rw [pLv_dictLevel]; exact hpr.append.1)
  obtain ⟨cs, d, Ps, Ns, P, N, h1, h2, h3, h4, h5⟩ := writeDelta_spec (T' := mem)
    (Ps := []) (Ns := []) h ⟨mem, [], by simp, by simp⟩ g1
  refine ⟨d, ?_, ⟨_, _, h3⟩, h5⟩
  unfold impreciseDeltaRollupUpto
  rw [g1]
  simp only [Option.bind_eq_bind, Option.bind_some, h1, h2]

end Rollup

end Verif
