import Verif.Model.Basic

/-! Lemmas about sorting and deduplication. -/

namespace Verif

section
variable {α : Type _} [LinearOrder α]

theorem mem_insertSorted {a x : α} {l : List α} : x ∈ insertSorted a l ↔ x = a ∨ x ∈ l := by
  induction l with
  | nil => simp [insertSorted]
  | cons b l ih =>
    simp only [insertSorted]
    split
    · simp
    · simp only [List.mem_cons, ih]; grind

theorem perm_insertSorted (a : α) (l : List α) : (insertSorted a l).Perm (a :: l) := by
  induction l with
  | nil => simp [insertSorted]
  | cons b l ih =>
    simp only [insertSorted]
    split
    · exact List.Perm.refl _
    · exact (List.Perm.cons b ih).trans (List.Perm.swap a b l)

theorem isort_perm (l : List α) : (isort l).Perm l := by
  induction l with
  | nil => exact List.Perm.refl _
  | cons a l ih => exact (perm_insertSorted a _).trans (List.Perm.cons a ih)

theorem mem_isort {x : α} {l : List α} : x ∈ isort l ↔ x ∈ l := (isort_perm l).mem_iff

theorem length_isort (l : List α) : (isort l).length = l.length := (isort_perm l).length_eq

theorem insertSorted_sorted {a : α} {l : List α} (h : l.Pairwise (· ≤ ·)) :
    (insertSorted a l).Pairwise (· ≤ ·) := by
  induction l with
  | nil => simp [insertSorted]
  | cons b l ih =>
    simp only [insertSorted]
    rw [List.pairwise_cons] at h
    split
    · rename_i hab
      rw [List.pairwise_cons]
      refine ⟨?_, List.pairwise_cons.2 h⟩
      intro x hx
      rcases List.mem_cons.1 hx with rfl | hx
      · exact hab
      · exact le_trans hab (h.1 x hx)
    · rename_i hab
      rw [List.pairwise_cons]
      refine ⟨?_, ih h.2⟩
      intro x hx
      rcases mem_insertSorted.1 hx with rfl | hx
      · exact le_of_lt (not_le.1 hab)
      · exact h.1 x hx

theorem isort_sorted (l : List α) : (isort l).Pairwise (· ≤ ·) := by
  induction l with
  | nil => exact List.Pairwise.nil
  | cons a l ih => exact insertSorted_sorted ih

/-- Two strictly sorted lists with the same elements are equal. -/
theorem SortedLt.ext {l₁ l₂ : List α} (h₁ : SortedLt l₁) (h₂ : SortedLt l₂)
    (h : ∀ x, x ∈ l₁ ↔ x ∈ l₂) : l₁ = l₂ := by
  induction l₁ generalizing l₂ with
  | nil =>
    cases l₂ with
    | nil => rfl
    | cons b l₂ => exact absurd ((h b).2 (by simp)) (by simp)
  | cons a l₁ ih =>
    cases l₂ with
    | nil => exact absurd ((h a).1 (by simp)) (by simp)
    | cons b l₂ =>
      unfold SortedLt at h₁ h₂
      rw [List.pairwise_cons] at h₁ h₂
      have hab : a = b := by
        have ha := (h a).1 (by simp)
        have hb := (h b).2 (by simp)
        rcases List.mem_cons.1 ha with rfl | ha
        · rfl
        rcases List.mem_cons.1 hb with rfl | hb
        · rfl
        exact absurd (h₂.1 a ha) (not_lt.2 (le_of_lt (h₁.1 b hb)))
      subst hab
      congr 1
      apply ih h₁.2 h₂.2
      intro x
      constructor
      · intro hx
        rcases List.mem_cons.1 ((h x).1 (by simp [hx])) with rfl | h'
        · exact absurd (h₁.1 x hx) (lt_irrefl x)
        · exact h'
      · intro hx
        rcases List.mem_cons.1 ((h x).2 (by simp [hx])) with rfl | h'
        · exact absurd (h₂.1 x hx) (lt_irrefl x)
        · exact h'

theorem SortedLt.nodup {l : List α} (h : SortedLt l) : l.Nodup :=
  List.Pairwise.imp (fun h => ne_of_lt h) h

theorem SortedLt.filter {l : List α} (h : SortedLt l) (q : α → Bool) : SortedLt (l.filter q) :=
  List.Pairwise.filter q h

theorem sortedLt_of_le_nodup {l : List α} (h : l.Pairwise (· ≤ ·)) (hn : l.Nodup) :
    SortedLt l := by
  unfold SortedLt
  induction l with
  | nil => exact List.Pairwise.nil
  | cons a l ih =>
    rw [List.pairwise_cons] at h ⊢
    rw [List.nodup_cons] at hn
    refine ⟨?_, ih h.2 hn.2⟩
    intro b hb
    exact lt_of_le_of_ne (h.1 b hb) (fun e => hn.1 (e ▸ hb))

theorem isort_eq_of_sorted {l : List α} (h : SortedLt l) : isort l = l := by
  apply SortedLt.ext
  · exact sortedLt_of_le_nodup (isort_sorted l) ((isort_perm l).nodup_iff.2 h.nodup)
  · exact h
  · intro x; exact mem_isort

theorem isort_sortedLt {l : List α} (h : l.Nodup) : SortedLt (isort l) :=
  sortedLt_of_le_nodup (isort_sorted l) ((isort_perm l).nodup_iff.2 h)

theorem mem_dedupAdj {x : α} {l : List α} : x ∈ dedupAdj l ↔ x ∈ l := by
  fun_induction dedupAdj l with
  | case1 => simp
  | case2 a => simp
  | case3 a l ih => rw [ih]; simp
  | case4 a b l h ih => simp only [List.mem_cons, ih]

theorem dedupAdj_sortedLt {l : List α} (h : l.Pairwise (· ≤ ·)) : SortedLt (dedupAdj l) := by
  unfold SortedLt
  fun_induction dedupAdj l with
  | case1 => exact List.Pairwise.nil
  | case2 a => simp
  | case3 a l ih => exact ih (List.pairwise_cons.1 h).2
  | case4 a b l hne ih =>
    rw [List.pairwise_cons] at h
    rw [List.pairwise_cons]
    refine ⟨?_, ih h.2⟩
    intro x hx
    have hx' := mem_dedupAdj.1 hx
    have hab : a < b := lt_of_le_of_ne (h.1 b (by simp)) hne
    rcases List.mem_cons.1 hx' with rfl | hx'
    · exact hab
    · exact lt_of_lt_of_le hab ((List.pairwise_cons.1 h.2).1 x hx')

theorem dedupAdj_isort_sortedLt (l : List α) : SortedLt (dedupAdj (isort l)) :=
  dedupAdj_sortedLt (isort_sorted l)

theorem mem_dedupAdj_isort {x : α} {l : List α} : x ∈ dedupAdj (isort l) ↔ x ∈ l := by
  rw [mem_dedupAdj, mem_isort]

end

end Verif
