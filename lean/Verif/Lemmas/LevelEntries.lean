import Verif.Model.Rollup
import Verif.Lemmas.Same

/-!
Collecting the entries of several layers, and one level that stands for several.
-/

set_option linter.unusedSectionVars false
set_option linter.unusedVariables false

namespace Verif

open SimpleBuilder

section Lv
variable {α : Type} [DecidableEq α]

omit [DecidableEq α] in
theorem lvCount_append (T L : List (List α × IdMap)) :
    lvCount (T ++ L) = lvCount T + lvCount L := by
  induction T with
  | nil => simp [lvCount]
  | cons e T ih =>
    obtain ⟨d, m⟩ := e
    simp only [List.cons_append, lvCount, ih]; omega

theorem lvId_append (T L : List (List α × IdMap)) (a : α) :
    lvId (T ++ L) a = (lvId T a).bind (fun r => match r with
      | some x => some (some (x + lvCount L))
      | none => lvId L a) := by
  induction T with
  | nil => simp [lvId]
  | cons e T ih =>
    obtain ⟨d, m⟩ := e
    simp only [List.cons_append, lvId]
    cases dictId d a with
    | none => exact ih
    | some i =>
      simp only [lvCount_append]
      cases innerToOuter m i with
      | none => rfl
      | some j =>
        simp only [Option.map_some, Option.bind_some, Option.some.injEq]
        omega

omit [DecidableEq α] in
theorem LvOk.append {T L : List (List α × IdMap)} (h : LvOk (T ++ L)) :
    LvOk T ∧ LvOk L ∧ ∀ a, lvMem T a → ¬ lvMem L a := by
  induction T with
  | nil => exact ⟨trivial, h, by rintro a ⟨e, he, _⟩; simp at he⟩
  | cons e T ih =>
    obtain ⟨d, m⟩ := e
    obtain ⟨h1, h2, h3, h4⟩ := h
    obtain ⟨g1, g2, g3⟩ := ih h4
    refine ⟨⟨h1, fun a ha e he => h2 a ha e (by simp [he]), h3, g1⟩, g2, ?_⟩
    rintro a ⟨e, he, hae⟩ ⟨e', he', hae'⟩
    rcases List.mem_cons.1 he with rfl | he
    · exact h2 a hae e' (by simp [he']) hae'
    · exact g3 a ⟨e, he, hae⟩ ⟨e', he', hae'⟩

/-- Several levels can be replaced by one that lists all their entries with their ids. -/
theorem lv_collapse {L : List (List α × IdMap)} (hL : LvOk L) {Q : List (α × Nat)}
    (hk : (Q.map Prod.fst).Nodup) (hQ : ∀ a i, (a, i) ∈ Q ↔ lvId L a = some (some i)) :
    IdMapOk (some (Q.map (fun q => q.2 - 1))) Q.length ∧ Q.length = lvCount L ∧
      ∀ a, lvId [(Q.map Prod.fst, some (Q.map (fun q => q.2 - 1)))] a = lvId L a := by
  have hperm : (Q.map (fun q => q.2 - 1)).Perm (List.range (lvCount L)) := by
    rw [List.perm_ext_iff_of_nodup ?_ List.nodup_range]
    · intro i
      rw [List.mem_range]
      constructor
      · intro hi
        obtain ⟨⟨a, j⟩, hq, rfl⟩ := List.mem_map.1 hi
        have := lvId_range hL ((hQ a j).1 hq)
        simp only
        omega
      · intro hi
        rcases lvGet_total hL (i + 1) (by omega) with ⟨a, _, _, g⟩ | ⟨_, g⟩
        · exact List.mem_map.2 ⟨(a, i + 1), (hQ _ _).2 g, by simp⟩
        · omega
    · apply List.Nodup.map_on
      · rintro ⟨a, i⟩ hq ⟨b, j⟩ hq' hij
        simp only at hij
        have h1 := (hQ a i).1 hq
        have h2 := (hQ b j).1 hq'
        have r1 := lvId_range hL h1
        have r2 := lvId_range hL h2
        have : i = j := by omega
        subst this
        rw [lvId_inj hL h1 h2]
      · exact List.Nodup.of_map _ hk
  have hlen : Q.length = lvCount L := by simpa using hperm.length_eq
  refine ⟨?_, hlen, ?_⟩
  · intro l hl
    cases hl
    rw [hlen]; exact hperm
  · intro a
    simp only [lvId, lvCount]
    rcases lvId_total hL a with ⟨i, g1, g2, g3, _⟩ | ⟨g1, _⟩
    · rw [g1]
      have hq := (hQ a i).2 g1
      obtain ⟨j, hj, hjq⟩ := List.getElem_of_mem hq
      have hid : dictId (Q.map Prod.fst) a = some (j + 1) := by
        apply dictId_of_get hk
        unfold dictGet
        rw [if_neg (by omega)]
        simp [List.getElem?_eq_getElem hj, hjq]
      rw [hid]
      simp only [innerToOuter, List.length_map]
      rw [if_neg (by omega), if_neg (by omega)]
      simp only [Nat.add_sub_cancel, List.getElem?_map, List.getElem?_eq_getElem hj, hjq,
        Option.map_some]
      congr 2
      omega
    · rw [g1]
      have : a ∉ Q.map Prod.fst := by
        intro hm
        obtain ⟨⟨b, i⟩, hq, rfl⟩ := List.mem_map.1 hm
        rw [(hQ b i).1 hq] at g1
        cases g1
      rw [dictId_none.2 this]

/-- The same on top of other levels. -/
theorem lv_collapse_append {T L : List (List α × IdMap)} {e : List α × IdMap}
    (h : LvOk (T ++ L)) (he : IdMapOk e.2 e.1.length) (hn : e.1.Nodup)
    (hc : e.1.length = lvCount T) (hi : ∀ a, lvId [e] a = lvId T a) :
    LvOk (e :: L) ∧ lvCount (e :: L) = lvCount (T ++ L) ∧
      ∀ a, lvId (e :: L) a = lvId (T ++ L) a := by
  obtain ⟨d, m⟩ := e
  obtain ⟨g1, g2, g3⟩ := h.append
  refine ⟨⟨hn, ?_, he, g2⟩, ?_, ?_⟩
  · intro a ha e' he' hae'
    have h1 : LvOk [(d, m)] := ⟨hn, by simp, he, trivial⟩
    have hm : lvMem T a := by
      rcases lvId_total h1 a with ⟨i, q1, _⟩ | ⟨_, q⟩
      · rw [hi] at q1
        rcases lvId_total g1 a with ⟨_, _, _, _, q⟩ | ⟨q, _⟩
        · exact q
        · rw [q] at q1; cases q1
      · exact absurd ⟨(d, m), by simp, ha⟩ q
    exact g3 a hm ⟨e', he', hae'⟩
  · rw [lvCount_append]
    simp only [lvCount]
    simp only at hc
    omega
  · intro a
    have : (d, m) :: L = [(d, m)] ++ L := rfl
    rw [this, lvId_append, lvId_append, hi]

end Lv

namespace Rollup

theorem levelEntries_spec {β : Type} {m : IdMap} {n skip off : Nat} (hm : IdMapOk m n) :
    ∀ {d : List β} {i : Nat}, i + skip + d.length ≤ n →
    ∃ E, levelEntries m skip off i d = some E ∧ E.map Prod.fst = d ∧
      ∀ b k, (b, k) ∈ E ↔ ∃ j x, d[j]? = some b ∧ innerToOuter m (i + j + skip + 1) = some x ∧
        k = x + off
  | [], i, h => ⟨[], rfl, rfl, by simp⟩
  | a :: d, i, h => by
    simp only [List.length_cons] at h
    obtain ⟨E, g1, g2, g3⟩ := levelEntries_spec (d := d) (i := i + 1) (off := off) hm
      (skip := skip) (by omega)
    obtain ⟨x, _, _, hx, _⟩ := hm.inner_outer (j := i + skip + 1) (by omega) (by omega)
    refine ⟨(a, x + off) :: E, by simp [levelEntries, g1, hx], by simp [g2], ?_⟩
    intro b k
    rw [List.mem_cons, g3]
    constructor
    · rintro (hh | ⟨j, y, h1, h2, h3⟩)
      · cases hh
        exact ⟨0, x, rfl, by simpa using hx, rfl⟩
      · refine ⟨j + 1, y, by simpa using h1, ?_, h3⟩
        rw [← h2]; congr 1; omega
    · rintro ⟨j, y, h1, h2, h3⟩
      cases j with
      | zero =>
        left
        simp only [List.getElem?_cons_zero, Option.some.injEq] at h1
        subst h1
        rw [show i + 0 + skip + 1 = i + skip + 1 by omega, hx] at h2
        cases h2
        rw [h3]
      | succ j =>
        right
        refine ⟨j, y, by simpa using h1, ?_, h3⟩
        rw [← h2]; congr 1; omega

/-- The common form of the three ways to collect entries. -/
def genEntries {β : Type} (off : Nat) : List (IdMap × Nat × List β × Nat) →
    Option (List (β × Nat))
  | [] => some []
  | (m, skip, sub, n) :: ls => do
    let r ← genEntries off ls
    let a ← levelEntries m skip (off + (ls.map (fun q => q.2.2.2)).sum) 0 sub
    return r ++ a

/-- The part of a level that one way to collect entries goes through. -/
def Part {α β : Type} (f : β → α) (q : IdMap × Nat × List β × Nat) (e : List α × IdMap) : Prop :=
  q.1 = e.2 ∧ q.2.2.2 = e.1.length ∧ ∃ pre post, e.1 = pre ++ q.2.2.1.map f ++ post ∧
    pre.length = q.2.1 ∧ ∀ b, f b ∉ pre ∧ f b ∉ post

theorem part_count {α β : Type} {f : β → α} {ls : List (IdMap × Nat × List β × Nat)}
    {L : List (List α × IdMap)} (h : List.Forall₂ (Part f) ls L) :
    (ls.map (fun q => q.2.2.2)).sum = lvCount L := by
  induction h with
  | nil => rfl
  | @cons q e ls L h1 h2 ih =>
    obtain ⟨d, m⟩ := e
    simp only [List.map_cons, List.sum_cons, lvCount, ih, h1.2.1]
    omega

theorem genEntries_spec {α β : Type} [DecidableEq α] {f : β → α}
    (hf : ∀ a b, f a = f b → a = b) (off : Nat) {ls : List (IdMap × Nat × List β × Nat)}
    {L : List (List α × IdMap)} (h : List.Forall₂ (Part f) ls L) (hL : LvOk L) :
    ∃ E, genEntries off ls = some E ∧ (E.map Prod.fst).Nodup ∧
      E.map Prod.fst = (ls.map (fun q => q.2.2.1)).reverse.flatten ∧
      ∀ b i, (b, i) ∈ E ↔ ∃ x, lvId L (f b) = some (some x) ∧ i = x + off := by
  induction h with
  | nil => exact ⟨[], rfl, by simp, rfl, by simp [lvId]⟩
  | @cons q e ls L h1 h2 ih =>
    obtain ⟨m, skip, sub, n⟩ := q
    obtain ⟨d, m'⟩ := e
    obtain ⟨e1, e2, pre, post, e3, e4, e5⟩ := h1
    simp only at e1 e2 e3 e4
    subst e1
    have hLL := hL
    obtain ⟨k1, k2, k3, k4⟩ := hL
    obtain ⟨r, g1, g2, g3, g4⟩ := ih k4
    have hsum := part_count h2
    have hn : d.length = pre.length + sub.length + post.length := by
      rw [e3]; simp; omega
    obtain ⟨a, q1, q2, q3⟩ := levelEntries_spec (β := β) (d := sub) (i := 0) (skip := skip)
      (off := off + (ls.map (fun q => q.2.2.2)).sum) k3 (by omega)
    have hat : ∀ (j : Nat) (b : β), sub[j]? = some b → d[skip + j]? = some (f b) := by
      intro j b hj
      have hjl : j < sub.length := (List.getElem?_eq_some_iff.1 hj).1
      rw [e3, List.append_assoc, List.getElem?_append_right (by omega),
        List.getElem?_append_left (by simp; omega)]
      rw [show skip + j - pre.length = j by omega]
      simp [hj]
    have hin : ∀ b, f b ∈ d ↔ b ∈ sub := by
      intro b
      rw [e3]
      simp only [List.mem_append, e5 b, false_or, or_false, List.mem_map]
      constructor
      · rintro ⟨c, hc, e⟩; rw [← hf _ _ e]; exact hc
      · intro hb; exact ⟨b, hb, rfl⟩
    have hlow : ∀ b i, (b, i) ∈ r → b ∉ sub := by
      intro b i hb hs
      obtain ⟨x, hx, _⟩ := (g4 b i).1 hb
      rcases lvId_total k4 (f b) with ⟨_, _, _, _, e, he, hae⟩ | ⟨hh, _⟩
      · exact k2 (f b) ((hin b).2 hs) e he hae
      · rw [hh] at hx; cases hx
    refine ⟨r ++ a, by simp [genEntries, g1, q1], ?_, by simp [g3, q2], ?_⟩
    · rw [List.map_append, q2]
      refine List.Nodup.append g2 ?_ ?_
      · have hd : (sub.map f).Nodup := by
          rw [e3] at k1
          exact (List.nodup_append.1 (List.nodup_append.1 k1).1).2.1
        exact List.Nodup.of_map _ hd
      · intro b hb hs
        obtain ⟨⟨b', i⟩, hm, rfl⟩ := List.mem_map.1 hb
        exact hlow _ _ hm hs
    · intro b i
      rw [List.mem_append, q3]
      constructor
      · rintro (hr | ⟨j, x, h1, h2, h3⟩)
        · obtain ⟨x, hx, hi⟩ := (g4 b i).1 hr
          exact ⟨x, lvId_cons_low hLL hx, hi⟩
        · refine ⟨x + lvCount L, ?_, by omega⟩
          have hid : dictId d (f b) = some (skip + j + 1) := by
            apply dictId_of_get k1
            unfold dictGet
            rw [if_neg (by omega)]
            simpa using hat j b h1
          simp only [lvId, hid]
          rw [show 0 + j + skip + 1 = skip + j + 1 by omega] at h2
          simp [h2]
      · rintro ⟨x, hx, hi⟩
        by_cases hb : b ∈ sub
        · right
          obtain ⟨j, hj⟩ := List.getElem?_of_mem hb
          have hid : dictId d (f b) = some (skip + j + 1) := by
            apply dictId_of_get k1
            unfold dictGet
            rw [if_neg (by omega)]
            simpa using hat j b hj
          simp only [lvId, hid] at hx
          cases hy : innerToOuter m (skip + j + 1) with
          | none => rw [hy] at hx; cases hx
          | some y =>
            rw [hy] at hx
            simp only [Option.map_some, Option.some.injEq] at hx
            refine ⟨j, y, hj, ?_, by omega⟩
            rw [← hy]; congr 1; omega
        · left
          have : f b ∉ d := fun hh => hb ((hin b).1 hh)
          simp only [lvId, dictId_none.2 this] at hx
          exact (g4 b i).2 ⟨x, hx, hi⟩

variable {K V : Type}

/-- The node and value levels of collected dictionaries. -/
def nvLv (ls : List (DictLevel K V)) : List (List (Obj K V) × IdMap) :=
  ls.map (fun l => (l.nodes.map Obj.node ++ l.values.map Obj.value, l.nvMap))

/-- The predicate levels of collected dictionaries. -/
def pLv (ls : List (DictLevel K V)) : List (List K × IdMap) := ls.map (fun l => (l.preds, l.pMap))

theorem nvLv_dictLevel (T : List (LayerData K V)) : nvLv (T.map (·.dictLevel)) = nvLevels T := by
  simp [nvLv, nvLevels, LayerData.dictLevel, LayerData.objs]

theorem pLv_dictLevel (T : List (LayerData K V)) : pLv (T.map (·.dictLevel)) = pLevels T := by
  simp [pLv, pLevels, LayerData.dictLevel]

theorem nvTotal_eq (ls : List (DictLevel K V)) : nvTotal ls = lvCount (nvLv ls) := by
  induction ls with
  | nil => rfl
  | cons l ls ih =>
    show nvTotal ls + _ = lvCount (_ :: nvLv ls)
    simp [lvCount, ih]

theorem pTotal_eq (ls : List (DictLevel K V)) : pTotal ls = lvCount (pLv ls) := by
  induction ls with
  | nil => rfl
  | cons l ls ih =>
    show pTotal ls + _ = lvCount (_ :: pLv ls)
    simp [lvCount, ih]

theorem nodeEntries_gen (off : Nat) (ls : List (DictLevel K V)) :
    nodeEntries off ls = genEntries off (ls.map (fun l =>
      (l.nvMap, 0, l.nodes, l.nodes.length + l.values.length))) := by
  induction ls with
  | nil => rfl
  | cons l ls ih =>
    have : nvTotal ls = ((ls.map (fun l =>
        (l.nvMap, 0, l.nodes, l.nodes.length + l.values.length))).map (fun q => q.2.2.2)).sum := by
      clear ih
      induction ls with
      | nil => rfl
      | cons l ls ih => simp only [nvTotal, List.map_cons, List.sum_cons, ih]; omega
    simp only [nodeEntries, List.map_cons, genEntries, ih, this]

theorem valueEntries_gen (off : Nat) (ls : List (DictLevel K V)) :
    valueEntries off ls = genEntries off (ls.map (fun l =>
      (l.nvMap, l.nodes.length, l.values, l.nodes.length + l.values.length))) := by
  induction ls with
  | nil => rfl
  | cons l ls ih =>
    have : nvTotal ls = ((ls.map (fun l =>
        (l.nvMap, l.nodes.length, l.values, l.nodes.length + l.values.length))).map
          (fun q => q.2.2.2)).sum := by
      clear ih
      induction ls with
      | nil => rfl
      | cons l ls ih => simp only [nvTotal, List.map_cons, List.sum_cons, ih]; omega
    simp only [valueEntries, List.map_cons, genEntries, ih, this]

theorem predEntries_gen (off : Nat) (ls : List (DictLevel K V)) :
    predEntries off ls = genEntries off (ls.map (fun l =>
      (l.pMap, 0, l.preds, l.preds.length))) := by
  induction ls with
  | nil => rfl
  | cons l ls ih =>
    have : pTotal ls = ((ls.map (fun l =>
        (l.pMap, 0, l.preds, l.preds.length))).map (fun q => q.2.2.2)).sum := by
      clear ih
      induction ls with
      | nil => rfl
      | cons l ls ih => simp only [pTotal, List.map_cons, List.sum_cons, ih]; omega
    simp only [predEntries, List.map_cons, genEntries, ih, this]

variable [LinearOrder K] [LinearOrder V]

theorem nodeEntries_spec (off : Nat) (ls : List (DictLevel K V)) (hL : LvOk (nvLv ls)) :
    ∃ E, nodeEntries off ls = some E ∧ (E.map Prod.fst).Nodup ∧
      E.map Prod.fst = (ls.map (·.nodes)).reverse.flatten ∧
      ∀ b i, (b, i) ∈ E ↔ ∃ x, lvId (nvLv ls) (.node b) = some (some x) ∧ i = x + off := by
  rw [nodeEntries_gen]
  have := genEntries_spec (f := (Obj.node : K → Obj K V)) obj_node_inj off
    (ls := ls.map (fun l => (l.nvMap, 0, l.nodes, l.nodes.length + l.values.length)))
    (L := nvLv ls) ?_ hL
  · simpa [List.map_map, Function.comp_def] using this
  · rw [nvLv, List.forall₂_map_left_iff, List.forall₂_map_right_iff, List.forall₂_same]
    intro l _
    refine ⟨rfl, by simp, [], l.values.map Obj.value, by simp, rfl, by simp⟩

theorem valueEntries_spec (off : Nat) (ls : List (DictLevel K V)) (hL : LvOk (nvLv ls)) :
    ∃ E, valueEntries off ls = some E ∧ (E.map Prod.fst).Nodup ∧
      E.map Prod.fst = (ls.map (·.values)).reverse.flatten ∧
      ∀ b i, (b, i) ∈ E ↔ ∃ x, lvId (nvLv ls) (.value b) = some (some x) ∧ i = x + off := by
  rw [valueEntries_gen]
  have := genEntries_spec (f := (Obj.value : V → Obj K V)) obj_value_inj off
    (ls := ls.map (fun l => (l.nvMap, l.nodes.length, l.values, l.nodes.length + l.values.length)))
    (L := nvLv ls) ?_ hL
  · simpa [List.map_map, Function.comp_def] using this
  · rw [nvLv, List.forall₂_map_left_iff, List.forall₂_map_right_iff, List.forall₂_same]
    intro l _
    refine ⟨rfl, by simp, l.nodes.map Obj.node, [], by simp, by simp, by simp⟩

theorem predEntries_spec (off : Nat) (ls : List (DictLevel K V)) (hL : LvOk (pLv ls)) :
    ∃ E, predEntries off ls = some E ∧ (E.map Prod.fst).Nodup ∧
      E.map Prod.fst = (ls.map (·.preds)).reverse.flatten ∧
      ∀ b i, (b, i) ∈ E ↔ ∃ x, lvId (pLv ls) b = some (some x) ∧ i = x + off := by
  rw [predEntries_gen]
  have := genEntries_spec (f := (id : K → K)) (fun _ _ h => h) off
    (ls := ls.map (fun l => (l.pMap, 0, l.preds, l.preds.length)))
    (L := pLv ls) ?_ hL
  · simpa [List.map_map, Function.comp_def] using this
  · rw [pLv, List.forall₂_map_left_iff, List.forall₂_map_right_iff, List.forall₂_same]
    intro l _
    refine ⟨rfl, by simp, [], [], by simp, rfl, by simp⟩

end Rollup

end Verif
