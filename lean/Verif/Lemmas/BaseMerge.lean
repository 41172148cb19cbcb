import Verif.Model.BaseMerge
import Verif.Lemmas.TripleStream
import Verif.Lemmas.Commit

/-!
Merging base layers.
-/

set_option linter.unusedSectionVars false
set_option linter.unusedVariables false

namespace Verif

namespace BaseMerge

section Heap
variable {α : Type} [LinearOrder α]

theorem popMin_none {ss : List (List α)} (h : popMin ss = none) : ss.flatten = [] := by
  induction ss with
  | nil => rfl
  | cons s ss ih =>
    cases s with
    | nil =>
      simp only [popMin, Option.map_eq_none_iff] at h
      simpa using ih h
    | cons a s =>
      simp only [popMin] at h
      split at h
      · cases h
      · split at h <;> cases h

theorem popMin_some {ss : List (List α)} (hs : ∀ s ∈ ss, s.Pairwise (· ≤ ·)) {a : α}
    {r : List (List α)} (h : popMin ss = some (a, r)) :
    ss.flatten.Perm (a :: r.flatten) ∧ (∀ b ∈ ss.flatten, a ≤ b) ∧ ∀ s ∈ r, s.Pairwise (· ≤ ·) := by
  induction ss generalizing a r with
  | nil => cases h
  | cons s ss ih =>
    have hs' := fun x hx => hs x (List.mem_cons_of_mem _ hx)
    cases s with
    | nil =>
      simp only [popMin, Option.map_eq_some_iff] at h
      obtain ⟨⟨b, r'⟩, h1, h2⟩ := h
      simp only [Prod.mk.injEq] at h2
      obtain ⟨rfl, rfl⟩ := h2
      obtain ⟨g1, g2, g3⟩ := ih hs' h1
      exact ⟨by simpa using g1, by simpa using g2, by simpa using g3⟩
    | cons c s =>
      have hc := hs (c :: s) (by simp)
      rw [List.pairwise_cons] at hc
      simp only [popMin] at h
      cases hp : popMin ss with
      | none =>
        rw [hp] at h
        simp only [Option.some.injEq, Prod.mk.injEq] at h
        obtain ⟨rfl, rfl⟩ := h
        have he := popMin_none hp
        refine ⟨by simp, ?_, ?_⟩
        · intro b hb
          rw [List.flatten_cons, he, List.append_nil] at hb
          rcases List.mem_cons.1 hb with rfl | hb
          · exact le_refl _
          · exact hc.1 b hb
        · intro x hx
          rcases List.mem_cons.1 hx with rfl | hx
          · exact hc.2
          · exact hs' x hx
      | some q =>
        obtain ⟨b, r'⟩ := q
        rw [hp] at h
        obtain ⟨g1, g2, g3⟩ := ih hs' hp
        simp only at h
        split at h
        · rename_i hlt
          simp only [Option.some.injEq, Prod.mk.injEq] at h
          obtain ⟨rfl, rfl⟩ := h
          refine ⟨?_, ?_, ?_⟩
          · rw [List.flatten_cons, List.flatten_cons]
            exact (List.Perm.append_left _ g1).trans List.perm_middle
          · intro x hx
            rw [List.flatten_cons, List.mem_append] at hx
            rcases hx with hx | hx
            · rcases List.mem_cons.1 hx with rfl | hx
              · exact le_of_lt hlt
              · exact le_trans (le_of_lt hlt) (hc.1 x hx)
            · exact g2 x hx
          · intro x hx
            rcases List.mem_cons.1 hx with rfl | hx
            · exact List.pairwise_cons.2 hc
            · exact g3 x hx
        · rename_i hlt
          simp only [Option.some.injEq, Prod.mk.injEq] at h
          obtain ⟨rfl, rfl⟩ := h
          refine ⟨by simp, ?_, ?_⟩
          · intro x hx
            rw [List.flatten_cons, List.mem_append] at hx
            rcases hx with hx | hx
            · rcases List.mem_cons.1 hx with rfl | hx
              · exact le_refl _
              · exact hc.1 x hx
            · exact le_trans (not_lt.1 hlt) (g2 x hx)
          · intro x hx
            rcases List.mem_cons.1 hx with rfl | hx
            · exact hc.2
            · exact hs' x hx

theorem heapMerge_spec : ∀ (n : Nat) {ss : List (List α)}, (∀ s ∈ ss, s.Pairwise (· ≤ ·)) →
    ss.flatten.length ≤ n →
    (heapMerge n ss).Perm ss.flatten ∧ (heapMerge n ss).Pairwise (· ≤ ·) := by
  intro n
  induction n with
  | zero =>
    intro ss hs hn
    have : ss.flatten = [] := List.length_eq_zero_iff.1 (by omega)
    rw [this]
    exact ⟨List.Perm.refl _, List.Pairwise.nil⟩
  | succ n ih =>
    intro ss hs hn
    simp only [heapMerge]
    cases hp : popMin ss with
    | none =>
      rw [popMin_none hp]
      exact ⟨List.Perm.refl _, List.Pairwise.nil⟩
    | some q =>
      obtain ⟨a, r⟩ := q
      obtain ⟨g1, g2, g3⟩ := popMin_some hs hp
      have hl := g1.length_eq
      rw [List.length_cons] at hl
      obtain ⟨k1, k2⟩ := ih g3 (by omega)
      refine ⟨(List.Perm.cons a k1).trans g1.symm, ?_⟩
      rw [List.pairwise_cons]
      refine ⟨fun b hb => g2 b ?_, k2⟩
      rw [g1.mem_iff]
      exact List.mem_cons_of_mem _ (k1.mem_iff.1 hb)

end Heap

theorem skipRepeats_dedup (a : Triple) (l : List Triple) :
    dedupAdj (a :: l) = a :: skipRepeats (some a) l := by
  induction l generalizing a with
  | nil => rfl
  | cons b l ih =>
    simp only [dedupAdj, skipRepeats]
    by_cases h : a = b
    · subst h
      rw [if_pos rfl, if_pos rfl, ih]
    · rw [if_neg h, if_neg (by simpa using fun e => h e.symm), ih]

theorem skipRepeats_eq (l : List Triple) : skipRepeats none l = dedupAdj l := by
  cases l with
  | nil => rfl
  | cons a l => rw [skipRepeats_dedup]; rfl

section Dicts
variable {α : Type} [LinearOrder α]

theorem dictOf_sorted (ds : List (List α)) : SortedLt (dictOf ds) := dedupAdj_isort_sortedLt _

theorem mem_dictOf {ds : List (List α)} {a : α} : a ∈ dictOf ds ↔ ∃ d ∈ ds, a ∈ d := by
  unfold dictOf
  rw [mem_dedupAdj_isort, List.mem_flatten]

theorem dictId_lt {d : List α} (hd : SortedLt d) {a b : α} {i j : Nat} (ha : dictId d a = some i)
    (hb : dictId d b = some j) : i < j ↔ a < b := by
  have key : ∀ {a b : α} {i j : Nat}, dictId d a = some i → dictId d b = some j → i < j → a < b := by
    intro a b i j ha hb hij
    obtain ⟨g1, g2, g3⟩ := dictGet_of_id ha
    obtain ⟨k1, k2, k3⟩ := dictGet_of_id hb
    unfold dictGet at g1 k1
    rw [if_neg (by omega)] at g1 k1
    obtain ⟨l1, rfl⟩ := List.getElem?_eq_some_iff.1 g1
    obtain ⟨l2, rfl⟩ := List.getElem?_eq_some_iff.1 k1
    exact List.pairwise_iff_getElem.1 hd _ _ l1 l2 (by omega)
  constructor
  · exact key ha hb
  · intro hab
    by_contra hn
    rcases Nat.lt_or_ge j i with h | h
    · exact lt_asymm hab (key hb ha h)
    · have : i = j := by omega
      subst this
      have h1 := (dictGet_of_id ha).1
      have h2 := (dictGet_of_id hb).1
      rw [h1] at h2
      cases h2
      exact lt_irrefl _ hab

/-- What the map of an input says. -/
theorem slot_mapOf {out d : List α} (hsub : ∀ a ∈ d, a ∈ out) {a : α} {i : Nat}
    (ha : dictId d a = some i) :
    ∃ j, slot (mapOf out d) i = some j ∧ dictId out a = some (j + 1) := by
  obtain ⟨g1, g2, g3⟩ := dictGet_of_id ha
  unfold dictGet at g1
  rw [if_neg (by omega)] at g1
  refine ⟨out.idxOf a, ?_, ?_⟩
  · unfold slot mapOf
    rw [if_neg (by omega), List.getElem?_map, g1]
    rfl
  · unfold dictId
    rw [if_pos (hsub a (List.mem_of_getElem? g1))]

end Dicts

variable {K V : Type} [LinearOrder K] [LinearOrder V]

/-- Ids in a layer without parent and without id maps. -/
theorem res_flat {d : LayerData K V} (hc : CountsOk [d]) (hm : d.nvMap = none) (hpm : d.pMap = none)
    (g : GTriple K V) (t : Triple) :
    Res [d] g t ↔ dictId d.objs g.s = some t.s ∧ dictId d.preds g.p = some t.p ∧
      dictId d.objs g.o = some t.o := by
  have key : ∀ {α : Type} [DecidableEq α] (l : List α) (a : α) (i : Nat),
      lvId [(l, none)] a = some (some i) ↔ dictId l a = some i := by
    intro α _ l a i
    simp only [lvId, lvCount]
    cases dictId l a <;> simp [innerToOuter]
  unfold Res
  rw [objectId_eq hc, predId_eq hc, objectId_eq hc]
  simp only [nvLevels, pLevels, List.map_cons, List.map_nil, hm, hpm, key]

/-- Comparing the ids of two entries gives the same result in both layers. -/
theorem objs_mono {d m : LayerData K V} (hd : DictSorted d) (hm : DictSorted m) {a b : Obj K V}
    {i j i' j' : Nat} (ha : dictId d.objs a = some i) (hb : dictId d.objs b = some j)
    (ha' : dictId m.objs a = some i') (hb' : dictId m.objs b = some j') (hij : i < j) : i' < j' := by
  cases a with
  | node k =>
    rw [dictId_node] at ha ha'
    have l1 := (dictGet_of_id ha).2
    have l2 := (dictGet_of_id ha').2
    cases b with
    | node k' =>
      rw [dictId_node] at hb hb'
      exact (dictId_lt hm.1 ha' hb').2 ((dictId_lt hd.1 ha hb).1 hij)
    | value v =>
      rw [dictId_value, Option.map_eq_some_iff] at hb hb'
      obtain ⟨y, hy, rfl⟩ := hb'
      have := (dictGet_of_id hy).2
      omega
  | value v =>
    rw [dictId_value, Option.map_eq_some_iff] at ha ha'
    obtain ⟨x, hx, rfl⟩ := ha
    obtain ⟨x', hx', rfl⟩ := ha'
    cases b with
    | node k =>
      rw [dictId_node] at hb
      have := (dictGet_of_id hb).2
      omega
    | value w =>
      rw [dictId_value, Option.map_eq_some_iff] at hb hb'
      obtain ⟨y, hy, rfl⟩ := hb
      obtain ⟨y', hy', rfl⟩ := hb'
      have := (dictId_lt hm.2.2 hx' hy').2 ((dictId_lt hd.2.2 hx hy).1 (by omega))
      omega

theorem objs_inj {d m : LayerData K V} {a b : Obj K V} {i i' j' : Nat}
    (ha : dictId d.objs a = some i) (hb : dictId d.objs b = some i)
    (ha' : dictId m.objs a = some i') (hb' : dictId m.objs b = some j') : i' = j' := by
  have h1 := (dictGet_of_id ha).1
  have h2 := (dictGet_of_id hb).1
  rw [h1] at h2
  cases h2
  rw [ha'] at hb'
  cases hb'
  rfl

/-- The conditions under which a layer can be merged. -/
structure Mergeable (d : LayerData K V) (P : List Triple) : Prop where
  ok : StackOk [d] [P] [[]]
  nvMap : d.nvMap = none
  pMap : d.pMap = none
  subjects : d.pos.subjects = none
  nodes : ∀ t ∈ P, t.s ≤ d.nodes.length

theorem Mergeable.of_clean {d : LayerData K V} (h : StackGood [d]) (hc : Clean d)
    (hs : d.pos.subjects = none) : ∃ P, Mergeable d P := by
  obtain ⟨Ps, Ns, hok⟩ := h
  have hrep := hok.rep
  cases hrep with
  | @cons _ _ P N Ps Ns h1 h2 h3 =>
    cases h3
    have hN : N = [] := by
      cases N with
      | nil => rfl
      | cons t N =>
        have := (hok.wf t).2.1 (List.mem_cons_self ..)
        simp [present] at this
    subst hN
    exact ⟨P, hok, hc.1, hc.2.1, hs, hc.2.2 P h1.triples⟩

theorem Mergeable.clean {d : LayerData K V} {P : List Triple} (h : Mergeable d P) : Clean d := by
  refine ⟨h.nvMap, h.pMap, ?_⟩
  intro ts hts
  have hrep := h.ok.rep
  cases hrep with
  | cons h1 h2 h3 =>
    rw [h1.triples] at hts
    cases hts
    exact h.nodes

/-- The triples of entries in a layer, by their ids. -/
def Means (d : LayerData K V) (g : GTriple K V) (t : Triple) : Prop :=
  dictId d.objs g.s = some t.s ∧ dictId d.preds g.p = some t.p ∧ dictId d.objs g.o = some t.o

theorem Means.mono {d m : LayerData K V} (hd : DictSorted d) (hm : DictSorted m)
    {g h : GTriple K V} {t u t' u' : Triple} (h1 : Means d g t) (h2 : Means d h u)
    (h3 : Means m g t') (h4 : Means m h u') (hlt : t < u) : t' < u' := by
  rw [Triple.lt_def] at hlt ⊢
  rcases hlt with hs | ⟨hs, hp | ⟨hp, ho⟩⟩
  · exact Or.inl (objs_mono hd hm h1.1 h2.1 h3.1 h4.1 hs)
  · refine Or.inr ⟨objs_inj h1.1 (hs ▸ h2.1) h3.1 h4.1, Or.inl ?_⟩
    exact (dictId_lt hm.2.1 h3.2.1 h4.2.1).2 ((dictId_lt hd.2.1 h1.2.1 h2.2.1).1 hp)
  · refine Or.inr ⟨objs_inj h1.1 (hs ▸ h2.1) h3.1 h4.1, Or.inr ⟨?_, ?_⟩⟩
    · have e1 := (dictGet_of_id h1.2.1).1
      have e2 := (dictGet_of_id h2.2.1).1
      rw [hp, e2] at e1
      have h3' := h3.2.1
      have h4' := h4.2.1
      simp only [Option.some.injEq] at e1
      rw [← e1, h4'] at h3'
      simp only [Option.some.injEq] at h3'
      exact h3'.symm
    · exact objs_mono hd hm h1.2.2 h2.2.2 h3.2.2 h4.2.2 ho

theorem mapTriple_spec {d m : LayerData K V} (hn : ∀ k ∈ d.nodes, k ∈ m.nodes)
    (hp : ∀ k ∈ d.preds, k ∈ m.preds) (hv : ∀ k ∈ d.values, k ∈ m.values) {g : GTriple K V}
    {t : Triple} (h : Means d g t) (hs : t.s ≤ d.nodes.length) :
    ∃ u, mapTriple (mapOf m.nodes d.nodes) (mapOf m.preds d.preds) (mapOf m.values d.values)
      m.nodes.length t = some u ∧ Means m g u := by
  obtain ⟨gs, gp, go⟩ := g
  obtain ⟨h1, h2, h3⟩ := h
  simp only at h1 h2 h3
  cases gs with
  | value v =>
    rw [dictId_value, Option.map_eq_some_iff] at h1
    obtain ⟨x, hx, hxe⟩ := h1
    have := (dictGet_of_id hx).2
    omega
  | node k =>
    rw [dictId_node] at h1
    obtain ⟨s, s1, s2⟩ := slot_mapOf hn h1
    obtain ⟨p, p1, p2⟩ := slot_mapOf hp h2
    unfold mapTriple
    simp only [s1, p1, Option.bind_eq_bind, Option.bind_some, pure]
    cases go with
    | node k' =>
      rw [dictId_node] at h3
      obtain ⟨o, o1, o2⟩ := slot_mapOf hn h3
      have hl := (dictGet_of_id h3).2
      have hlen : t.o - 1 < (mapOf m.nodes d.nodes).length := by
        simp only [mapOf, List.length_map]; omega
      rw [if_neg (by omega), if_pos hlen, o1]
      refine ⟨_, rfl, ?_, ?_, ?_⟩
      · simp only [dictId_node]; exact s2
      · exact p2
      · simp only [dictId_node]; exact o2
    | value v =>
      rw [dictId_value, Option.map_eq_some_iff] at h3
      obtain ⟨x, hx, hxe⟩ := h3
      obtain ⟨o, o1, o2⟩ := slot_mapOf hv hx
      have hl := (dictGet_of_id hx).2
      have hlen : ¬ t.o - 1 < (mapOf m.nodes d.nodes).length := by
        simp only [mapOf, List.length_map]; omega
      have hidx : t.o - 1 - (mapOf m.nodes d.nodes).length = x - 1 := by
        simp only [mapOf, List.length_map]; omega
      unfold slot at o1
      rw [if_neg (by omega)] at o1
      rw [if_neg (by omega), if_neg hlen, hidx, o1]
      refine ⟨_, rfl, ?_, ?_, ?_⟩
      · simp only [dictId_node]; exact s2
      · exact p2
      · simp only [dictId_value, o2, Option.map_some]
        congr 1
        omega

theorem mapAll_spec {f : Triple → Option Triple} : ∀ {ts : List Triple},
    (∀ t ∈ ts, ∃ u, f t = some u) →
    (∀ t ∈ ts, ∀ t' ∈ ts, ∀ u u', f t = some u → f t' = some u' → t < t' → u < u') →
    SortedLt ts →
    ∃ us, mapAll f ts = some us ∧ SortedLt us ∧ ∀ u, u ∈ us ↔ ∃ t ∈ ts, f t = some u := by
  intro ts
  induction ts with
  | nil => intro _ _ _; exact ⟨[], rfl, List.Pairwise.nil, by simp⟩
  | cons t ts ih =>
    intro hf hm hs
    unfold SortedLt at hs
    rw [List.pairwise_cons] at hs
    obtain ⟨u, hu⟩ := hf t (by simp)
    obtain ⟨us, h1, h2, h3⟩ := ih (fun x hx => hf x (by simp [hx]))
      (fun x hx y hy => hm x (by simp [hx]) y (by simp [hy])) hs.2
    refine ⟨u :: us, by simp [mapAll, hu, h1], ?_, ?_⟩
    · unfold SortedLt
      rw [List.pairwise_cons]
      refine ⟨?_, h2⟩
      intro x hx
      obtain ⟨t', ht', hx'⟩ := (h3 x).1 hx
      exact hm t (by simp) t' (by simp [ht']) u x hu hx' (hs.1 t' ht')
    · intro x
      simp only [List.mem_cons, h3]
      constructor
      · rintro (rfl | ⟨y, hy, hyx⟩)
        · exact ⟨t, Or.inl rfl, hu⟩
        · exact ⟨y, Or.inr hy, hyx⟩
      · rintro ⟨y, rfl | hy, hyx⟩
        · left; rw [hu] at hyx; cases hyx; rfl
        · right; exact ⟨y, hy, hyx⟩

/-- The triples of a mergeable layer stand for entries. -/
theorem Mergeable.means {d : LayerData K V} {P : List Triple} (h : Mergeable d P) {t : Triple}
    (ht : t ∈ P) : ∃ g, Means d g t := by
  have hpr : present [P] [[]] t := by simp [present, ht]
  have hr := h.ok.present_range hpr
  obtain ⟨g, hg⟩ := Res.exists h.ok (h.ok.present_nonzero hpr) hr.1 hr.2.1 hr.2.2
  exact ⟨g, (res_flat h.ok.counts h.nvMap h.pMap g t).1 hg⟩

theorem Mergeable.content {d : LayerData K V} {P : List Triple} (h : Mergeable d P)
    (g : GTriple K V) : content [d] g ↔ ∃ t ∈ P, Means d g t := by
  rw [content_iff h.ok]
  constructor
  · rintro ⟨t, h1, h2⟩
    exact ⟨t, by simpa [present] using h2, (res_flat h.ok.counts h.nvMap h.pMap g t).1 h1⟩
  · rintro ⟨t, h1, h2⟩
    exact ⟨t, (res_flat h.ok.counts h.nvMap h.pMap g t).2 h2, by simp [present, h1]⟩

theorem inputStream_spec {d m : LayerData K V} {P : List Triple} (h : Mergeable d P)
    (hm : DictSorted m) (hn : ∀ k ∈ d.nodes, k ∈ m.nodes)
    (hp : ∀ k ∈ d.preds, k ∈ m.preds) (hv : ∀ k ∈ d.values, k ∈ m.values) :
    ∃ us, inputStream m.nodes m.preds m.values d = some us ∧ SortedLt us ∧
      (∀ u ∈ us, ∃ g, content [d] g ∧ Means m g u) ∧
      (∀ g, content [d] g → ∃ u ∈ us, Means m g u) := by
  have hst : Stored d.pos P := by
    have := h.ok.rep
    cases this with
    | cons h1 _ _ => exact h1
  have hds := h.ok.sorted d (by simp)
  unfold inputStream
  simp only [hst.baseStream h.subjects, Option.bind_eq_bind, Option.bind_some]
  have hmap : ∀ t ∈ P, ∃ g u, Means d g t ∧ Means m g u ∧
      mapTriple (mapOf m.nodes d.nodes) (mapOf m.preds d.preds) (mapOf m.values d.values)
        m.nodes.length t = some u := by
    intro t ht
    obtain ⟨g, hg⟩ := h.means ht
    obtain ⟨u, h1, h2⟩ := mapTriple_spec hn hp hv hg (h.nodes t ht)
    exact ⟨g, u, hg, h2, h1⟩
  obtain ⟨us, h1, h2, h3⟩ := mapAll_spec (ts := P)
    (f := mapTriple (mapOf m.nodes d.nodes) (mapOf m.preds d.preds) (mapOf m.values d.values)
        m.nodes.length)
    (fun t ht => by obtain ⟨g, u, _, _, hu⟩ := hmap t ht; exact ⟨u, hu⟩)
    (by
      intro t ht t' ht' u u' hu hu' hlt
      obtain ⟨g, v, g1, g2, g3⟩ := hmap t ht
      obtain ⟨g', v', g1', g2', g3'⟩ := hmap t' ht'
      rw [hu] at g3; cases g3
      rw [hu'] at g3'; cases g3'
      exact Means.mono hds hm g1 g1' g2 g2' hlt)
    hst.sorted
  refine ⟨us, h1, h2, ?_, ?_⟩
  · intro u hu
    obtain ⟨t, ht, htu⟩ := (h3 u).1 hu
    obtain ⟨g, v, g1, g2, g3⟩ := hmap t ht
    rw [htu] at g3; cases g3
    exact ⟨g, (h.content g).2 ⟨t, ht, g1⟩, g2⟩
  · intro g hg
    obtain ⟨t, ht, hgt⟩ := (h.content g).1 hg
    obtain ⟨u, g1, g2⟩ := mapTriple_spec hn hp hv hgt (h.nodes t ht)
    exact ⟨u, (h3 u).2 ⟨t, ht, g1⟩, g2⟩

theorem inputStreams_spec {m : LayerData K V} (hm : DictSorted m) : ∀ {ds : List (LayerData K V)},
    (∀ d ∈ ds, ∃ P, Mergeable d P) → (∀ d ∈ ds, ∀ k ∈ d.nodes, k ∈ m.nodes) →
    (∀ d ∈ ds, ∀ k ∈ d.preds, k ∈ m.preds) → (∀ d ∈ ds, ∀ k ∈ d.values, k ∈ m.values) →
    ∃ ss, inputStreams m.nodes m.preds m.values ds = some ss ∧
      (∀ s ∈ ss, s.Pairwise (· ≤ ·)) ∧
      (∀ u ∈ ss.flatten, ∃ g, (∃ d ∈ ds, content [d] g) ∧ Means m g u) ∧
      (∀ d ∈ ds, ∀ g, content [d] g → ∃ u ∈ ss.flatten, Means m g u) := by
  intro ds
  induction ds with
  | nil => intro _ _ _ _; exact ⟨[], rfl, by simp, by simp, by simp⟩
  | cons d ds ih =>
    intro h hn hp hv
    obtain ⟨P, hP⟩ := h d (by simp)
    obtain ⟨us, a1, a2, a3, a4⟩ := inputStream_spec hP hm (hn d (by simp)) (hp d (by simp))
      (hv d (by simp))
    obtain ⟨ss, b1, b2, b3, b4⟩ := ih (fun x hx => h x (by simp [hx]))
      (fun x hx => hn x (by simp [hx])) (fun x hx => hp x (by simp [hx]))
      (fun x hx => hv x (by simp [hx]))
    refine ⟨us :: ss, by simp [inputStreams, a1, b1], ?_, ?_, ?_⟩
    · intro s hs
      rcases List.mem_cons.1 hs with rfl | hs
      · exact List.Pairwise.imp (fun h => le_of_lt h) a2
      · exact b2 s hs
    · intro u hu
      rw [List.flatten_cons, List.mem_append] at hu
      rcases hu with hu | hu
      · obtain ⟨g, g1, g2⟩ := a3 u hu
        exact ⟨g, ⟨d, by simp, g1⟩, g2⟩
      · obtain ⟨g, ⟨e, he, g1⟩, g2⟩ := b3 u hu
        exact ⟨g, ⟨e, by simp [he], g1⟩, g2⟩
    · intro e he g hg
      rcases List.mem_cons.1 he with rfl | he
      · obtain ⟨u, hu, hm⟩ := a4 g hg
        exact ⟨u, by simp [hu], hm⟩
      · obtain ⟨u, hu, hm⟩ := b4 e he g hg
        exact ⟨u, by rw [List.flatten_cons, List.mem_append]; exact Or.inr hu, hm⟩

/-- Merging layers that can be merged gives the union. -/
theorem mergeBases_spec {ds : List (LayerData K V)} (h : ∀ d ∈ ds, ∃ P, Mergeable d P) :
    ∃ m P, mergeBases ds = some m ∧ Mergeable m P ∧
      (∀ g, content [m] g ↔ ∃ d ∈ ds, content [d] g) ∧
      (∀ k, k ∈ m.nodes ↔ ∃ d ∈ ds, k ∈ d.nodes) ∧
      (∀ k, k ∈ m.preds ↔ ∃ d ∈ ds, k ∈ d.preds) ∧
      (∀ k, k ∈ m.values ↔ ∃ d ∈ ds, k ∈ d.values) := by
  -- a layer with the merged dictionaries
  let m0 : LayerData K V := { nodes := dictOf (ds.map (·.nodes)), preds := dictOf (ds.map (·.preds)),
                              values := dictOf (ds.map (·.values)),
                              pos := ⟨none, none, ⟨[], []⟩, ⟨[], []⟩, ⟨[], []⟩, []⟩ }
  have hm0 : DictSorted m0 := ⟨dictOf_sorted _, dictOf_sorted _, dictOf_sorted _⟩
  have mn : ∀ k, k ∈ m0.nodes ↔ ∃ d ∈ ds, k ∈ d.nodes := by
    intro k; simp only [m0, mem_dictOf, List.mem_map]
    constructor
    · rintro ⟨_, ⟨d, hd, rfl⟩, hk⟩; exact ⟨d, hd, hk⟩
    · rintro ⟨d, hd, hk⟩; exact ⟨_, ⟨d, hd, rfl⟩, hk⟩
  have mp : ∀ k, k ∈ m0.preds ↔ ∃ d ∈ ds, k ∈ d.preds := by
    intro k; simp only [m0, mem_dictOf, List.mem_map]
    constructor
    · rintro ⟨_, ⟨d, hd, rfl⟩, hk⟩; exact ⟨d, hd, hk⟩
    · rintro ⟨d, hd, hk⟩; exact ⟨_, ⟨d, hd, rfl⟩, hk⟩
  have mv : ∀ k, k ∈ m0.values ↔ ∃ d ∈ ds, k ∈ d.values := by
    intro k; simp only [m0, mem_dictOf, List.mem_map]
    constructor
    · rintro ⟨_, ⟨d, hd, rfl⟩, hk⟩; exact ⟨d, hd, hk⟩
    · rintro ⟨d, hd, hk⟩; exact ⟨_, ⟨d, hd, rfl⟩, hk⟩
  obtain ⟨ss, s1, s2, s3, s4⟩ := inputStreams_spec hm0 h (fun d hd k hk => (mn k).2 ⟨d, hd, hk⟩)
    (fun d hd k hk => (mp k).2 ⟨d, hd, hk⟩) (fun d hd k hk => (mv k).2 ⟨d, hd, hk⟩)
  obtain ⟨k1, k2⟩ := heapMerge_spec ss.flatten.length s2 (Nat.le_refl _)
  have hmem : ∀ t, t ∈ dedupAdj (heapMerge ss.flatten.length ss) ↔ t ∈ ss.flatten := fun t => by
    rw [mem_dedupAdj, k1.mem_iff]
  have hsort := dedupAdj_sortedLt k2
  -- subjects are nodes
  have hnode : ∀ g, (∃ d ∈ ds, content [d] g) → ∃ k, g.s = .node k := by
    rintro g ⟨d, hd, hg⟩
    obtain ⟨P, hP⟩ := h d hd
    obtain ⟨t, ht, hgt⟩ := (hP.content g).1 hg
    have hlen := hP.nodes t ht
    obtain ⟨gs, gp, go⟩ := g
    cases gs with
    | node k => exact ⟨k, rfl⟩
    | value v =>
      have := hgt.1
      simp only [dictId_value, Option.map_eq_some_iff] at this
      obtain ⟨x, hx, hxe⟩ := this
      have := (dictGet_of_id hx).2
      omega
  have hrange : ∀ t ∈ ss.flatten, t.Nonzero ∧ t.s ≤ m0.nodes.length ∧ t.p ≤ m0.preds.length ∧
      t.o ≤ m0.nodes.length + m0.values.length := by
    intro t ht
    obtain ⟨g, hg, g1, g2, g3⟩ := s3 t ht
    obtain ⟨k, hk⟩ := hnode g hg
    rw [hk, dictId_node] at g1
    have h1 := (dictGet_of_id g1).2
    have h2 := (dictGet_of_id g2).2
    have h3 := (dictGet_of_id g3).2
    rw [LayerData.objs_length] at h3
    exact ⟨⟨by omega, by omega, by omega⟩, by omega, by omega, by omega⟩
  have hfil : (dedupAdj (heapMerge ss.flatten.length ss)).filter (fun t => decide t.Nonzero) =
      dedupAdj (heapMerge ss.flatten.length ss) := by
    rw [List.filter_eq_self]
    intro t ht
    simpa using (hrange t ((hmem t).1 ht)).1
  obtain ⟨d, e1, e2, e3, e4, e5, e6⟩ := buildBase_spec hm0.1 hm0.2.1 hm0.2.2
    (as := dedupAdj (heapMerge ss.flatten.length ss)) (by rw [hfil]; exact hsort) (by
      intro t ht
      have := (hrange t ((hmem t).1 ht)).2
      omega)
  rw [hfil] at e5 e6
  have hmeans : ∀ g t, Means m0 g t ↔ Means d g t := by
    intro g t
    unfold Means LayerData.objs
    rw [e2, e3, e4]
  have hbuild := e1
  have hsub : d.pos.subjects = none := by
    unfold buildBase at hbuild
    simp only [Option.bind_eq_bind, Option.bind_eq_some_iff, pure, Option.some.injEq] at hbuild
    obtain ⟨_, _, _, _, _, _, x, hx, rfl⟩ := hbuild
    have := buildIndex_sparse hx
    cases hxs : x.subjects with
    | none => rfl
    | some _ => rw [hxs] at this; cases this
  have hok : Mergeable d (dedupAdj (heapMerge ss.flatten.length ss)) :=
    ⟨e6, e5.nvMap, e5.pMap, hsub, fun t ht => by
      rw [e2]; exact (hrange t ((hmem t).1 ht)).2.1⟩
  refine ⟨d, _, ?_, hok, ?_, ?_, ?_, ?_⟩
  · unfold mergeBases
    have s1' : inputStreams (dictOf (ds.map (·.nodes))) (dictOf (ds.map (·.preds)))
      (dictOf (ds.map (·.values))) ds = some ss := s1
    simp only [s1', Option.bind_eq_bind, Option.bind_some, skipRepeats_eq]
    exact e1
  · intro g
    rw [hok.content]
    constructor
    · rintro ⟨t, ht, hg⟩
      obtain ⟨g', hg', hm'⟩ := s3 t ((hmem t).1 ht)
      have : g = g' := Res.inj e6 ((res_flat e6.counts e5.nvMap e5.pMap g t).2 hg)
        ((res_flat e6.counts e5.nvMap e5.pMap g' t).2 ((hmeans g' t).1 hm'))
      rw [this]; exact hg'
    · rintro ⟨e, he, hg⟩
      obtain ⟨u, hu, hm'⟩ := s4 e he g hg
      exact ⟨u, (hmem u).2 hu, (hmeans g u).1 hm'⟩
  · intro k; rw [e2]; exact mn k
  · intro k; rw [e3]; exact mp k
  · intro k; rw [e4]; exact mv k

end BaseMerge

end Verif
