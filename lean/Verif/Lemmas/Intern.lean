import Verif.Lemmas.StackOk
import Verif.Model.SimpleBuilder

/-!
Temporary ids of the layer builder: the maps kept while triples are added, the
marking of used ids, and the conversion to final ids at commit.
-/

set_option linter.unusedSectionVars false
set_option linter.unusedVariables false

namespace Verif

section Maps
variable {α : Type} [DecidableEq α]

/-- The invariant of one of the two maps of the builder. `L` are the levels of the
parent and `n` the largest id in use. -/
structure MapInv (L : List (List α × IdMap)) (m : List (α × Nat)) (n : Nat) : Prop where
  ok : LvOk L
  keys : (m.map Prod.fst).Nodup
  entry : ∀ a i, (a, i) ∈ m →
    lvId L a = some (some i) ∨ (lvId L a = some none ∧ lvCount L < i ∧ i ≤ n)
  inj : ∀ a a' i, (a, i) ∈ m → (a', i) ∈ m → lvCount L < i → a = a'
  surj : ∀ i, lvCount L < i → i ≤ n → ∃ a, (a, i) ∈ m
  le : lvCount L ≤ n

/-- The id an entry has for the builder. -/
def Rel (L : List (List α × IdMap)) (m : List (α × Nat)) (a : α) (i : Nat) : Prop :=
  (a, i) ∈ m ∨ lvId L a = some (some i)

theorem nodup_keys_unique {m : List (α × Nat)} (h : (m.map Prod.fst).Nodup) {a : α} {i j : Nat}
    (hi : (a, i) ∈ m) (hj : (a, j) ∈ m) : i = j := by
  induction m with
  | nil => simp at hi
  | cons q m ih =>
    simp only [List.map_cons, List.nodup_cons] at h
    rcases List.mem_cons.1 hi with hi | hi <;> rcases List.mem_cons.1 hj with hj | hj
    · rw [← hi] at hj; cases hj; rfl
    · exfalso; apply h.1; rw [← hi]; exact List.mem_map.2 ⟨_, hj, rfl⟩
    · exfalso; apply h.1; rw [← hj]; exact List.mem_map.2 ⟨_, hi, rfl⟩
    · exact ih h.2 hi hj

variable {L : List (List α × IdMap)} {m : List (α × Nat)} {n : Nat}

theorem lvId_range (hL : LvOk L) {a : α} {i : Nat} (ha : lvId L a = some (some i)) :
    1 ≤ i ∧ i ≤ lvCount L := by
  rcases lvId_total hL a with ⟨j, q1, q2, q3, _⟩ | ⟨q1, _⟩
  · rw [ha] at q1; simp only [Option.some.injEq] at q1; omega
  · rw [ha] at q1; cases q1

theorem lvId_inj (hL : LvOk L) {a b : α} {i : Nat} (ha : lvId L a = some (some i))
    (hb : lvId L b = some (some i)) : a = b := by
  have hi : i ≠ 0 := by have := lvId_range hL ha; omega
  have h1 := (lv_iff hL hi).1 ha
  have h2 := (lv_iff hL hi).1 hb
  rw [h1] at h2
  simpa using h2

theorem MapInv.rel_range (h : MapInv L m n) {a : α} {i : Nat} (hr : Rel L m a i) :
    1 ≤ i ∧ i ≤ n := by
  have := h.le
  rcases hr with hr | hr
  · rcases h.entry a i hr with g | g
    · have := lvId_range h.ok g; omega
    · omega
  · have := lvId_range h.ok hr; omega

/-- Entries with parent ids are found in the parent. -/
theorem MapInv.rel_low (h : MapInv L m n) {a : α} {i : Nat} (hr : Rel L m a i)
    (hi : i ≤ lvCount L) : lvId L a = some (some i) := by
  rcases hr with hr | hr
  · rcases h.entry a i hr with g | g
    · exact g
    · omega
  · exact hr

theorem MapInv.rel_high (h : MapInv L m n) {a : α} {i : Nat} (hr : Rel L m a i)
    (hi : lvCount L < i) : (a, i) ∈ m ∧ lvId L a = some none := by
  rcases hr with hr | hr
  · rcases h.entry a i hr with g | g
    · have := lvId_range h.ok g; omega
    · exact ⟨hr, g.1⟩
  · have := lvId_range h.ok hr; omega

theorem MapInv.rel_fun (h : MapInv L m n) {a : α} {i j : Nat} (hi : Rel L m a i)
    (hj : Rel L m a j) : i = j := by
  have key : ∀ {i}, Rel L m a i → lvId L a = some (some i) ∨ (lvId L a = some none ∧ (a, i) ∈ m) := by
    intro i hi
    rcases hi with hi | hi
    · rcases h.entry a i hi with g | g
      · exact Or.inl g
      · exact Or.inr ⟨g.1, hi⟩
    · exact Or.inl hi
  rcases key hi with h1 | ⟨h1, h1'⟩ <;> rcases key hj with h2 | ⟨h2, h2'⟩
  · rw [h1] at h2; simpa using h2
  · rw [h1] at h2; simp at h2
  · rw [h1] at h2; simp at h2
  · exact nodup_keys_unique h.keys h1' h2'

theorem MapInv.rel_inj (h : MapInv L m n) {a b : α} {i : Nat} (ha : Rel L m a i)
    (hb : Rel L m b i) : a = b := by
  by_cases hi : i ≤ lvCount L
  · exact lvId_inj h.ok (h.rel_low ha hi) (h.rel_low hb hi)
  · exact h.inj a b i (h.rel_high ha (by omega)).1 (h.rel_high hb (by omega)).1 (by omega)

/-- Looking up an association list. -/
theorem assocGet_some {m : List (α × Nat)} {a : α} {i : Nat} (h : assocGet m a = some i) :
    (a, i) ∈ m := by
  unfold assocGet at h
  cases hf : m.find? (fun q => decide (q.1 = a)) with
  | none => rw [hf] at h; cases h
  | some q =>
    rw [hf] at h
    simp only [Option.map_some, Option.some.injEq] at h
    have h1 := List.mem_of_find?_eq_some hf
    have h2 := List.find?_some hf
    simp only [decide_eq_true_eq] at h2
    rw [← h, ← h2]; exact h1

theorem assocGet_none {m : List (α × Nat)} {a : α} (h : assocGet m a = none) :
    a ∉ m.map Prod.fst := by
  unfold assocGet at h
  simp only [Option.map_eq_none_iff, List.find?_eq_none, decide_eq_true_eq] at h
  intro hm
  obtain ⟨q, h1, h2⟩ := List.mem_map.1 hm
  exact h q h1 h2

theorem MapInv.init (h : LvOk L) : MapInv L [] (lvCount L) where
  ok := h
  keys := by simp
  entry := by simp
  inj := by simp
  surj := by intro i h1 h2; omega
  le := Nat.le_refl _

theorem MapInv.known (h : MapInv L m n) {a : α} {i : Nat} (ha : assocGet m a = none)
    (hi : lvId L a = some (some i)) : MapInv L ((a, i) :: m) n where
  ok := h.ok
  keys := by
    simp only [List.map_cons, List.nodup_cons]
    exact ⟨assocGet_none ha, h.keys⟩
  entry := by
    intro b j hb
    rcases List.mem_cons.1 hb with hb | hb
    · cases hb; exact Or.inl hi
    · exact h.entry b j hb
  inj := by
    intro b b' j hb hb' hj
    have hl := lvId_range h.ok hi
    rcases List.mem_cons.1 hb with hb | hb
    · cases hb; omega
    · rcases List.mem_cons.1 hb' with hb' | hb'
      · cases hb'; omega
      · exact h.inj b b' j hb hb' hj
  surj := by
    intro j h1 h2
    obtain ⟨b, hb⟩ := h.surj j h1 h2
    exact ⟨b, by simp [hb]⟩
  le := h.le

theorem MapInv.fresh (h : MapInv L m n) {a : α} (ha : assocGet m a = none)
    (hi : lvId L a = some none) : MapInv L ((a, n + 1) :: m) (n + 1) where
  ok := h.ok
  keys := by
    simp only [List.map_cons, List.nodup_cons]
    exact ⟨assocGet_none ha, h.keys⟩
  entry := by
    have := h.le
    intro b j hb
    rcases List.mem_cons.1 hb with hb | hb
    · cases hb; exact Or.inr ⟨hi, by omega, by omega⟩
    · rcases h.entry b j hb with g | g
      · exact Or.inl g
      · exact Or.inr ⟨g.1, g.2.1, by omega⟩
  inj := by
    intro b b' j hb hb' hj
    have hle : ∀ {b j}, (b, j) ∈ m → j ≤ n := by
      intro b j hb
      exact (h.rel_range (Or.inl hb)).2
    rcases List.mem_cons.1 hb with hb | hb
    · cases hb
      rcases List.mem_cons.1 hb' with hb' | hb'
      · cases hb'; rfl
      · have := hle hb'; omega
    · rcases List.mem_cons.1 hb' with hb' | hb'
      · cases hb'; have := hle hb; omega
      · exact h.inj b b' j hb hb' hj
  surj := by
    intro j h1 h2
    by_cases hj : j = n + 1
    · subst hj; exact ⟨a, by simp⟩
    · obtain ⟨b, hb⟩ := h.surj j h1 (by omega)
      exact ⟨b, by simp [hb]⟩
  le := by have := h.le; omega

theorem Rel.mono {m m' : List (α × Nat)} (h : ∀ q ∈ m, q ∈ m') {a : α} {i : Nat}
    (hr : Rel L m a i) : Rel L m' a i := by
  rcases hr with hr | hr
  · exact Or.inl (h _ hr)
  · exact Or.inr hr

/-! ### Collecting and converting -/

open SimpleBuilder

theorem collectUsed_spec {off : Nat} {used : List Bool} : ∀ {m : List (α × Nat)},
    (∀ a i, (a, i) ∈ m → off < i → i - off - 1 < used.length) →
    collectUsed off used m =
      some (m.filter (fun q => decide (off < q.2) && (used[q.2 - off - 1]?).getD false))
  | [], _ => rfl
  | (a, i) :: m, h => by
    have ih := collectUsed_spec (off := off) (used := used) (m := m)
      (fun b j hb => h b j (by simp [hb]))
    unfold collectUsed
    by_cases hi : i ≤ off
    · rw [if_pos hi, ih, List.filter_cons_of_neg (by simp; omega)]
    · rw [if_neg hi]
      have hlt := h a i (by simp) (by omega)
      cases hu : used[i - off - 1] with
      | true =>
        have : used[i - off - 1]? = some true := by rw [List.getElem?_eq_getElem hlt, hu]
        simp only [this, ih]
        rw [List.filter_cons_of_pos (by simp [this]; omega)]
        rfl
      | false =>
        have : used[i - off - 1]? = some false := by rw [List.getElem?_eq_getElem hlt, hu]
        simp only [this, ih]
        rw [List.filter_cons_of_neg (by simp [this])]

/-- Filling keeps the length and what is not overwritten, and stores the position of
each entry. -/
theorem fillMap_spec {β : Type} {off : Nat} : ∀ {E : List (β × Nat)} {first : Nat} {m : List Nat},
    (E.map Prod.snd).Nodup → (∀ q ∈ E, off < q.2 ∧ q.2 - off - 1 < m.length) →
    ∃ m', fillMap off first E m = some m' ∧ m'.length = m.length ∧
      (∀ j q, E[j]? = some q → m'[q.2 - off - 1]? = some (first + j)) ∧
      (∀ i, off < i → (∀ q ∈ E, q.2 ≠ i) → m'[i - off - 1]? = m[i - off - 1]?)
  | [], first, m, _, _ => ⟨m, rfl, rfl, by simp, fun _ _ _ => rfl⟩
  | (a, old) :: E, first, m, hn, hr => by
    simp only [List.map_cons, List.nodup_cons] at hn
    have h0 := hr (a, old) (by simp)
    simp only at h0
    obtain ⟨m', h1, h2, h3, h4⟩ := fillMap_spec (off := off) (E := E) (first := first + 1)
      (m := m.set (old - off - 1) first) hn.2 (by
        intro q hq
        have := hr q (by simp [hq])
        rw [List.length_set]
        exact this)
    refine ⟨m', ?_, by rw [h2, List.length_set], ?_, ?_⟩
    · unfold fillMap
      rw [if_pos h0, h1]
    · intro j q hq
      cases j with
      | zero =>
        simp only [List.getElem?_cons_zero, Option.some.injEq] at hq
        subst hq
        rw [h4 old h0.1 (by
          intro q hq he
          exact hn.1 (List.mem_map.2 ⟨q, hq, he⟩))]
        simp [h0.2]
      | succ j =>
        simp only [List.getElem?_cons_succ] at hq
        rw [h3 j q hq]
        congr 1
        omega
    · intro i hi hne
      rw [h4 i hi (fun q hq => hne q (by simp [hq]))]
      have := hne (a, old) (by simp)
      simp only at this
      rw [List.getElem?_set]
      rw [if_neg (by omega)]

theorem fillMap_append {β γ δ : Type} {off : Nat} (f : β → δ) (g : γ → δ) :
    ∀ {E : List (β × Nat)} {F : List (γ × Nat)} {first : Nat} {m : List Nat},
    (fillMap off first E m).bind (fillMap off (first + E.length) F) =
      fillMap off first (E.map (fun q => (f q.1, q.2)) ++ F.map (fun q => (g q.1, q.2))) m
  | [], F, first, m => by
    simp only [fillMap, Option.bind_some, List.length_nil, Nat.add_zero, List.map_nil,
      List.nil_append]
    induction F generalizing first m with
    | nil => rfl
    | cons q F ih =>
      obtain ⟨a, old⟩ := q
      simp only [List.map_cons, fillMap]
      split
      · exact ih _ _
      · rfl
  | (a, old) :: E, F, first, m => by
    simp only [List.map_cons, List.cons_append, fillMap]
    split
    · have := fillMap_append f g (off := off) (E := E) (F := F) (first := first + 1)
        (m := m.set (old - off - 1) first)
      rw [← this]
      congr 2
      simp only [List.length_cons]
      omega
    · rfl

/-- The heart of the id conversion: after filling, every entry in use is given the
id it has in the new dictionary level. -/
theorem convert_spec (h : MapInv L m n) {used : Nat → Prop} {E : List (α × Nat)}
    (hE : ∀ a i, (a, i) ∈ E ↔ (a, i) ∈ m ∧ lvCount L < i ∧ used i)
    (hEk : (E.map Prod.fst).Nodup) {nm : List Nat}
    (hnm : ∀ j q, E[j]? = some q → nm[q.2 - lvCount L - 1]? = some (lvCount L + 1 + j))
    {a : α} {i : Nat} (hr : Rel L m a i) (hu : lvCount L < i → used i) :
    ∃ u, remapId (lvCount L) nm i = some u ∧
      lvId ((E.map Prod.fst, none) :: L) a = some (some u) := by
  unfold remapId
  by_cases hi : i > lvCount L
  · rw [if_pos hi]
    obtain ⟨hm, hl⟩ := h.rel_high hr hi
    have hmem := (hE a i).2 ⟨hm, hi, hu hi⟩
    obtain ⟨j, hj, hje⟩ := List.getElem_of_mem hmem
    have hq : E[j]? = some (a, i) := by rw [List.getElem?_eq_getElem hj, hje]
    refine ⟨lvCount L + 1 + j, hnm j _ hq, ?_⟩
    unfold lvId
    have hget : dictGet (E.map Prod.fst) (j + 1) = some a := by
      unfold dictGet
      rw [if_neg (by omega)]
      simp [hq]
    rw [dictId_of_get hEk hget]
    simp only [innerToOuter, Option.map_some, Option.some.injEq]
    omega
  · rw [if_neg hi]
    refine ⟨i, rfl, ?_⟩
    have hl := h.rel_low hr (by omega)
    unfold lvId
    have : a ∉ E.map Prod.fst := by
      intro ha
      obtain ⟨⟨b, j⟩, hb, rfl⟩ := List.mem_map.1 ha
      have := (hE b j).1 hb
      rcases h.entry b j this.1 with g | g
      · have := lvId_range h.ok g; omega
      · rw [hl] at g; simp at g
    rw [dictId_none.2 this]
    exact hl

theorem convert_ok (h : MapInv L m n) {E : List (α × Nat)}
    (hE : ∀ a i, (a, i) ∈ E → (a, i) ∈ m ∧ lvCount L < i)
    (hEk : (E.map Prod.fst).Nodup) : LvOk ((E.map Prod.fst, none) :: L) := by
  refine ⟨hEk, ?_, IdMapOk.none _, h.ok⟩
  intro a ha e he hae
  obtain ⟨⟨b, j⟩, hb, rfl⟩ := List.mem_map.1 ha
  have := hE b j hb
  have hr := h.rel_high (Or.inl this.1) this.2
  rcases lvId_total h.ok b with ⟨i, q1, _⟩ | ⟨_, q⟩
  · rw [hr.2] at q1; cases q1
  · exact q ⟨e, he, hae⟩

end Maps

/-! ### Sorting entries -/

section SortEntries
open SimpleBuilder
variable {α : Type} [LinearOrder α]

theorem sortEntries_perm (l : List (α × Nat)) : (sortEntries l).Perm l := by
  unfold sortEntries
  have h := (isort_perm (l.map toLex)).map ofLex
  have e : (l.map toLex).map ofLex = l := by
    rw [List.map_map]
    exact List.map_id'' (fun _ => rfl) l
  rw [e] at h
  exact h

theorem sortEntries_sorted {l : List (α × Nat)} (h : (l.map Prod.fst).Nodup) :
    SortedLt ((sortEntries l).map Prod.fst) := by
  apply sortedLt_of_le_nodup
  · unfold sortEntries
    rw [List.map_map]
    have hs := isort_sorted (l.map (toLex : α × Nat → α ×ₗ Nat))
    rw [List.pairwise_map]
    refine hs.imp ?_
    intro a b hab
    rcases Prod.Lex.le_iff.1 hab with h1 | ⟨h1, _⟩
    · exact le_of_lt h1
    · exact le_of_eq h1
  · exact ((sortEntries_perm l).map Prod.fst).nodup_iff.2 h

end SortEntries

end Verif
