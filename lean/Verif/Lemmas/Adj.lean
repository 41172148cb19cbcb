import Verif.Model.Succinct
import Verif.Lemmas.Sort

/-!
Facts about adjacency lists: an adjacency list is described by the list of its
(left, right) pairs, stubs included.
-/

namespace Verif

/-- Number of set bits strictly before a position. -/
def ones (bits : List Bool) (k : Nat) : Nat := (bits.take k).count true

theorem ones_zero (bits : List Bool) : ones bits 0 = 0 := by simp [ones]

theorem ones_succ {bits : List Bool} {k : Nat} {b : Bool} (h : bits[k]? = some b) :
    ones bits (k + 1) = ones bits k + (if b then 1 else 0) := by
  unfold ones
  rw [List.take_add_one, h, List.count_append]
  cases b <;> simp

theorem ones_le_succ (bits : List Bool) (k : Nat) : ones bits k ≤ ones bits (k + 1) := by
  unfold ones
  rw [List.take_add_one, List.count_append]
  omega

theorem ones_mono (bits : List Bool) {j k : Nat} (h : j ≤ k) : ones bits j ≤ ones bits k := by
  induction h with
  | refl => exact Nat.le_refl _
  | step _ ih => exact Nat.le_trans ih (ones_le_succ _ _)

theorem ones_append_left {bits more : List Bool} {k : Nat} (h : k ≤ bits.length) :
    ones (bits ++ more) k = ones bits k := by
  unfold ones
  rw [List.take_append_of_le_length h]

theorem ones_append_right (bits more : List Bool) (j : Nat) :
    ones (bits ++ more) (bits.length + j) = bits.count true + ones more j := by
  unfold ones
  rw [List.take_append, List.count_append]
  simp [List.take_of_length_le]

theorem ones_length (bits : List Bool) : ones bits bits.length = bits.count true := by
  simp [ones]

theorem ones_replicate {n j : Nat} (h : j ≤ n) : ones (List.replicate n true) j = j := by
  unfold ones
  simp [List.take_replicate, Nat.min_eq_left h]

/-- The position found by `select1` splits positions by how many bits come before. -/
theorem select1_spec : ∀ (bits : List Bool) (i : Nat), 1 ≤ i → i ≤ bits.count true →
    ∃ k, select1 bits i = some k ∧ k < bits.length ∧ ∀ j, k + 1 ≤ j ↔ i ≤ ones bits j
  | [], i, h1, h2 => by simp at h2; omega
  | true :: bs, 1, _, _ => by
    refine ⟨0, rfl, by simp, fun j => ?_⟩
    cases j with
    | zero => simp [ones]
    | succ j => simp [ones]
  | true :: bs, k + 2, _, h2 => by
    simp only [List.count_cons_self] at h2
    obtain ⟨m, hm, hlt, hj⟩ := select1_spec bs (k + 1) (by omega) (by omega)
    refine ⟨m + 1, by simp [select1, hm], by simp; omega, fun j => ?_⟩
    cases j with
    | zero => simp [ones]
    | succ j =>
      have := hj j
      simp only [ones, List.take_succ_cons, List.count_cons_self] at this ⊢
      omega
  | false :: bs, k + 1, _, h2 => by
    have h2' : k + 1 ≤ bs.count true := by simpa using h2
    obtain ⟨m, hm, hlt, hj⟩ := select1_spec bs (k + 1) (by omega) h2'
    refine ⟨m + 1, by simp [select1, hm], by simp; omega, fun j => ?_⟩
    cases j with
    | zero => simp [ones]
    | succ j =>
      have := hj j
      simp only [ones, List.take_succ_cons] at this ⊢
      rw [List.count_cons_of_ne (by decide)]
      omega

/-- `offset_for` finds the first position of a left. -/
theorem AdjList.offsetFor_spec (a : AdjList) {i : Nat} (h : i ≤ a.leftCount) :
    ∃ k, a.offsetFor (i + 1) = some k ∧ k ≤ a.bits.length ∧
      ∀ j, k ≤ j ↔ i ≤ ones a.bits j := by
  cases i with
  | zero => exact ⟨0, by simp [offsetFor], by omega, fun j => by omega⟩
  | succ i =>
    obtain ⟨k, hk, hlt, hj⟩ := select1_spec a.bits (i + 1) (by omega) h
    exact ⟨k + 1, by simp [offsetFor, hk], by omega, hj⟩

theorem AdjList.offsetFor_ones (a : AdjList) {i k : Nat} (h : i ≤ a.leftCount)
    (hk : a.offsetFor (i + 1) = some k) : ones a.bits k = i := by
  obtain ⟨k', hk', hle, hj⟩ := a.offsetFor_spec h
  obtain rfl : k = k' := by rw [hk] at hk'; exact Option.some.inj hk'
  have h1 := (hj k).1 (Nat.le_refl _)
  cases k with
  | zero => rw [ones_zero] at h1 ⊢; omega
  | succ k =>
    have h2 : ¬ (i ≤ ones a.bits k) := fun hh => by have := (hj k).2 hh; omega
    have hlt : k < a.bits.length := by omega
    rw [ones_succ (List.getElem?_eq_getElem hlt)] at h1 ⊢
    split at h1 <;> split <;> simp_all <;> omega

/-- Lexicographic order on pairs. -/
def PLt (a b : Nat × Nat) : Prop := a.1 < b.1 ∨ (a.1 = b.1 ∧ a.2 < b.2)

theorem PLt.trans {a b c : Nat × Nat} (h : PLt a b) (h' : PLt b c) : PLt a c := by
  unfold PLt at *; omega

theorem PLt.irrefl {a : Nat × Nat} : ¬ PLt a a := by
  unfold PLt; omega

/-- The zero stubs written for the lefts strictly between `a` and `l`. -/
def stubs (a l : Nat) : List (Nat × Nat) := (List.range' (a + 1) (l - 1 - a)).map (fun j => (j, 0))

theorem mem_stubs {a l : Nat} {q : Nat × Nat} :
    q ∈ stubs a l ↔ a < q.1 ∧ q.1 < l ∧ q.2 = 0 := by
  simp only [stubs, List.mem_map, List.mem_range'_1]
  constructor
  · rintro ⟨j, hj, rfl⟩; simp; omega
  · rintro ⟨h1, h2, h3⟩
    exact ⟨q.1, by omega, by cases q; simp_all⟩

theorem stubs_length (a l : Nat) : (stubs a l).length = l - 1 - a := by simp [stubs]

theorem stubs_self (a : Nat) : stubs a a = [] := by
  have : a - 1 - a = 0 := by omega
  simp [stubs, this]

theorem stubs_succ (a : Nat) : stubs a (a + 1) = [] := by simp [stubs]

theorem stubs_pairwise (a l : Nat) : (stubs a l).Pairwise PLt := by
  unfold stubs
  rw [List.pairwise_map]
  refine List.Pairwise.imp ?_ List.pairwise_lt_range'
  intro x y h
  left; exact h

/-- The builder holds the pairs `P`. -/
structure BInv (b : AdjBuilder) (P : List (Nat × Nat)) : Prop where
  nums : b.nums = P.map Prod.snd
  len : P ≠ [] → b.bits.length + 1 = P.length
  empty : P = [] → b.bits = [] ∧ b.lastLeft = 0 ∧ b.lastRight = 0
  left : ∀ k q, P[k]? = some q → q.1 = ones b.bits k + 1
  last : ∀ (h : P ≠ []), P.getLast h = (b.lastLeft, b.lastRight)
  sorted : P.Pairwise PLt
  bound : ∀ q ∈ P, q.1 ≤ b.lastLeft

theorem BInv.nil : BInv {} [] where
  nums := rfl
  len h := absurd rfl h
  empty _ := ⟨rfl, rfl, rfl⟩
  left k q h := by simp at h
  last h := absurd rfl h
  sorted := List.Pairwise.nil
  bound := by simp

theorem BInv.lastLeft_pos {b P} (h : BInv b P) (hP : P ≠ []) :
    b.lastLeft = b.bits.count true + 1 := by
  have hl := h.len hP
  have hlt : P.length - 1 < P.length := by have := List.length_pos_iff.2 hP; omega
  have h1 := h.left (P.length - 1) _ (List.getElem?_eq_getElem hlt)
  have h2 := h.last hP
  rw [List.getLast_eq_getElem] at h2
  rw [h2] at h1
  have h3 : P.length - 1 = b.bits.length := by omega
  rw [h3, ones_length] at h1
  exact h1

theorem BInv.count {b P} (h : BInv b P) (hP : P ≠ []) : b.count + 1 = P.length := h.len hP

/-- The effect of a push in one expression. -/
theorem AdjBuilder.push_eq {b : AdjBuilder} {l r : Nat} (hl : 1 ≤ l)
    (hord : b.lastLeft < l ∨ (b.lastLeft = l ∧ b.lastRight < r)) :
    b.push l r = some
      { lastLeft := l, lastRight := r,
        bits := b.bits ++ (if l = b.lastLeft then [false]
          else List.replicate (if b.lastLeft = 0 then l - 1 else l - b.lastLeft) true),
        nums := b.nums ++ List.replicate (l - 1 - b.lastLeft) 0 ++ [r] } := by
  have hno : ¬ (l < b.lastLeft ∨ (l = b.lastLeft ∧ r ≤ b.lastRight)) := by omega
  unfold AdjBuilder.push
  rw [if_neg hno]
  simp only [Option.some.injEq, AdjBuilder.mk.injEq, true_and]
  refine ⟨?_, ?_⟩
  · by_cases h0 : b.lastLeft = 0
    · by_cases h1 : l = 1
      · simp [h0, h1]
      · have h2 : ¬ (l = 0) := by omega
        simp [h0, h1, h2]
    · by_cases h1 : l = b.lastLeft
      · simp [h0, h1]
      · have h2 : ¬ (l - b.lastLeft = 0) := by omega
        simp [h0, h1, h2]
  · congr 1
    by_cases h0 : b.lastLeft = 0
    · by_cases h1 : l = 1
      · simp [h0, h1]
      · have h2 : ¬ (l = 0) := by omega
        simp [h0, h1, h2]
    · by_cases h1 : l = b.lastLeft
      · have h3 : l - 1 - l = 0 := by omega
        rw [← h1]
        have : ¬ (l = 0) := by omega
        simp [h3, this]
      · have h2 : ¬ (l - b.lastLeft = 0) := by omega
        have h3 : l - b.lastLeft - 1 = l - 1 - b.lastLeft := by omega
        simp [h0, h2, h3]

theorem pairwise_getLast {P : List (Nat × Nat)} (hs : P.Pairwise PLt) (hne : P ≠ [])
    {x : Nat × Nat} (hx : x ∈ P) : x = P.getLast hne ∨ PLt x (P.getLast hne) := by
  obtain ⟨k, hk, rfl⟩ := List.getElem_of_mem hx
  rw [List.getLast_eq_getElem]
  by_cases h : k = P.length - 1
  · left; simp [h]
  · right
    exact List.pairwise_iff_getElem.1 hs k (P.length - 1) hk (by omega) (by omega)

/-- Pushing an ordered pair appends it, with stubs for skipped lefts. -/
theorem BInv.push {b P} (h : BInv b P) {l r : Nat} (hl : 1 ≤ l)
    (hord : b.lastLeft < l ∨ (b.lastLeft = l ∧ b.lastRight < r)) :
    ∃ b', b.push l r = some b' ∧ BInv b' (P ++ stubs b.lastLeft l ++ [(l, r)]) ∧
      b'.lastLeft = l ∧ b'.lastRight = r := by
  rw [AdjBuilder.push_eq hl hord]
  refine ⟨_, rfl, ?_, rfl, rfl⟩
  have hsnd : (stubs b.lastLeft l).map Prod.snd = List.replicate (l - 1 - b.lastLeft) 0 := by
    rw [List.eq_replicate_iff]
    constructor
    · simp [stubs_length]
    · intro x hx
      simp only [List.mem_map] at hx
      obtain ⟨q, hq, rfl⟩ := hx
      exact (mem_stubs.1 hq).2.2
  have hlenP : P.length = b.bits.length + (if b.lastLeft = 0 then 0 else 1) := by
    by_cases hP : P = []
    · have := h.empty hP
      simp [hP, this]
    · have h1 := h.len hP
      have h2 := h.lastLeft_pos hP
      rw [if_neg (by omega)]; omega
  have hcount : b.bits.count true + (if b.lastLeft = 0 then 0 else 1) = b.lastLeft := by
    by_cases hP : P = []
    · have := h.empty hP
      simp [this]
    · have h2 := h.lastLeft_pos hP
      rw [if_neg (by omega)]; omega
  constructor
  · simp only [List.map_append, List.map_cons, List.map_nil, h.nums, hsnd]
  · intro _
    simp only [List.length_append, stubs_length, List.length_cons, List.length_nil]
    split
    · rename_i heq
      have h0 : b.lastLeft ≠ 0 := by omega
      rw [if_neg h0] at hlenP
      simp; omega
    · simp only [List.length_replicate]
      split at hlenP
      · rename_i h0; simp [h0]; omega
      · rename_i h0; simp [h0]; omega
  · intro hh; simp at hh
  · intro k q hq
    show q.1 = ones (b.bits ++ _) k + 1
    by_cases hk1 : k < P.length
    · have hb : k ≤ b.bits.length := by split at hlenP <;> omega
      rw [List.append_assoc, List.getElem?_append_left hk1] at hq
      rw [ones_append_left hb]
      exact h.left k q hq
    · have hk2 : b.bits.length + (k - b.bits.length) = k := by split at hlenP <;> omega
      have hones : ∀ more, ones (b.bits ++ more) k =
          b.bits.count true + ones more (k - b.bits.length) := by
        intro more
        conv => lhs; rw [← hk2]
        rw [ones_append_right]
      rw [hones]
      have hklt : k < (P ++ stubs b.lastLeft l ++ [(l, r)]).length :=
        (List.getElem?_eq_some_iff.1 hq).1
      simp only [List.length_append, stubs_length, List.length_cons, List.length_nil] at hklt
      have hq1 : (q.1 = b.lastLeft + 1 + (k - P.length) ∧
          k - P.length < l - 1 - b.lastLeft) ∨ (q.1 = l ∧
          k = P.length + (l - 1 - b.lastLeft)) := by
        rw [List.append_assoc, List.getElem?_append_right (by omega)] at hq
        by_cases hk' : k - P.length < (stubs b.lastLeft l).length
        · rw [List.getElem?_append_left hk'] at hq
          left
          simp only [stubs, List.getElem?_map] at hq
          rw [stubs_length] at hk'
          simp [hk'] at hq
          rw [← hq]
          exact ⟨rfl, hk'⟩
        · right
          rw [List.getElem?_append_right (by omega)] at hq
          rw [stubs_length] at hk' hq
          have hz : k - P.length - (l - 1 - b.lastLeft) = 0 := by omega
          rw [hz] at hq
          simp at hq
          rw [← hq]
          exact ⟨rfl, by omega⟩
      by_cases heq : l = b.lastLeft
      · rw [if_pos heq]
        have h0 : b.lastLeft ≠ 0 := by omega
        rw [if_neg h0] at hlenP hcount
        have hkk : k - b.bits.length = 1 := by omega
        rw [hkk]
        simp [ones]
        omega
      · rw [if_neg heq, ones_replicate (by split at hlenP <;> simp_all <;> omega)]
        split at hlenP <;> simp_all <;> omega
  · intro hne; simp
  · rw [List.append_assoc, List.pairwise_append]
    refine ⟨h.sorted, ?_, ?_⟩
    · rw [List.pairwise_append]
      refine ⟨stubs_pairwise _ _, List.pairwise_singleton _ _, ?_⟩
      intro x hx y hy
      rw [mem_stubs] at hx
      simp only [List.mem_singleton] at hy
      subst hy
      left; exact hx.2.1
    · intro x hx y hy
      have hb := h.bound x hx
      rcases List.mem_append.1 hy with hy | hy
      · rw [mem_stubs] at hy
        left; omega
      · simp only [List.mem_singleton] at hy
        subst hy
        have hPne : P ≠ [] := List.ne_nil_of_mem hx
        have hlast := pairwise_getLast h.sorted hPne hx
        rw [h.last hPne] at hlast
        rcases hlast with hh | hh
        · rw [hh]; unfold PLt; simp only; omega
        · unfold PLt at *; simp only at *; omega
  · intro q hq
    simp only [List.mem_append, List.mem_singleton, mem_stubs] at hq
    show q.1 ≤ l
    rcases hq with (hq | hq) | hq
    · have := h.bound q hq; omega
    · omega
    · subst hq; exact Nat.le_refl _

/-- The adjacency list holds the pairs `P`. -/
structure AdjRep (a : AdjList) (P : List (Nat × Nat)) : Prop where
  nums : a.nums = P.map Prod.snd
  len : a.bits.length = P.length
  left : ∀ (k : Nat) (h : k < P.length), P[k].1 = ones a.bits k + 1
  lastBit : ∀ h : a.bits ≠ [], a.bits.getLast h = true
  sorted : P.Pairwise PLt

theorem BInv.finalize {b P} (h : BInv b P) : AdjRep b.finalize P where
  nums := h.nums
  len := by
    by_cases hP : P = []
    · have := h.empty hP
      simp [AdjBuilder.finalize, h.nums, hP, this]
    · have hn : b.nums ≠ [] := by rw [h.nums]; simpa using hP
      simp only [AdjBuilder.finalize, if_neg hn, List.length_append, List.length_cons,
        List.length_nil]
      have := h.len hP; omega
  left k hk := by
    have hP : P ≠ [] := by intro hh; simp [hh] at hk
    have hn : b.nums ≠ [] := by rw [h.nums]; simpa using hP
    have := h.len hP
    simp only [AdjBuilder.finalize, if_neg hn]
    rw [ones_append_left (by omega)]
    exact h.left k _ (List.getElem?_eq_getElem hk)
  lastBit hb := by
    by_cases hP : P = []
    · have he := h.empty hP
      exact absurd (by simp [AdjBuilder.finalize, h.nums, hP, he]) hb
    · have hn : b.nums ≠ [] := by rw [h.nums]; simpa using hP
      simp [AdjBuilder.finalize, if_neg hn]
  sorted := h.sorted

namespace AdjRep
variable {a : AdjList} {P : List (Nat × Nat)}

theorem rightCount (h : AdjRep a P) : a.rightCount = P.length := h.len

theorem numAt (h : AdjRep a P) {k : Nat} (hk : k < P.length) : a.numAt k = some P[k].2 := by
  simp [AdjList.numAt, h.nums, List.getElem?_eq_getElem hk]

theorem bitAt (h : AdjRep a P) {k : Nat} (hk : k < P.length) :
    ∃ b, a.bitAt k = some b ∧ ones a.bits (k + 1) = ones a.bits k + (if b then 1 else 0) := by
  have hk' : k < a.bits.length := by rw [h.len]; exact hk
  exact ⟨a.bits[k], List.getElem?_eq_getElem hk', ones_succ (List.getElem?_eq_getElem hk')⟩

theorem leftAt (h : AdjRep a P) {k : Nat} (hk : k < P.length) : a.leftAt k = some P[k].1 := by
  simp only [AdjList.leftAt, h.len, hk, if_true, h.left k hk]; rfl

theorem pairAt (h : AdjRep a P) {k : Nat} (hk : k < P.length) : a.pairAt k = some P[k] := by
  simp [AdjList.pairAt, h.leftAt hk, h.numAt hk]

/-- The number of lefts is the last left. -/
theorem leftCount (h : AdjRep a P) (hP : P ≠ []) : a.leftCount = (P.getLast hP).1 := by
  have hlen := List.length_pos_iff.2 hP
  have h1 := h.left (P.length - 1) (by omega)
  rw [List.getLast_eq_getElem, h1]
  have hb : a.bits ≠ [] := by intro hh; have := h.len; simp [hh] at this; omega
  have hl := h.lastBit hb
  rw [List.getLast_eq_getElem] at hl
  have h2 : a.bits[P.length - 1]? = some true := by
    rw [← h.len, List.getElem?_eq_getElem (by have := List.length_pos_iff.2 hb; omega), hl]
  have h3 := ones_succ h2
  have h4 : P.length - 1 + 1 = a.bits.length := by rw [h.len]; omega
  rw [h4, ones_length] at h3
  simpa [AdjList.leftCount] using h3

theorem leftCount_nil (h : AdjRep a []) : a.leftCount = 0 := by
  have := h.len
  simp at this
  simp [AdjList.leftCount, this]

theorem ones_end (h : AdjRep a P) : ones a.bits P.length = a.leftCount := by
  rw [← h.len, ones_length]; rfl

theorem ones_lt (h : AdjRep a P) {k : Nat} (hk : k < P.length) :
    ones a.bits k < a.leftCount := by
  have hP : P ≠ [] := by intro hh; simp [hh] at hk
  rw [h.leftCount hP]
  have hlen := List.length_pos_iff.2 hP
  rw [List.getLast_eq_getElem, h.left (P.length - 1) (by omega)]
  have := ones_mono a.bits (show k ≤ P.length - 1 by omega)
  omega

theorem fst_pos (h : AdjRep a P) {q : Nat × Nat} (hq : q ∈ P) : 1 ≤ q.1 := by
  obtain ⟨k, hk, rfl⟩ := List.getElem_of_mem hq
  rw [h.left k hk]; omega

theorem fst_le (h : AdjRep a P) {q : Nat × Nat} (hq : q ∈ P) : q.1 ≤ a.leftCount := by
  obtain ⟨k, hk, rfl⟩ := List.getElem_of_mem hq
  have := h.ones_lt hk
  rw [h.left k hk]; omega

/-- Seeking a left splits the pairs. -/
theorem drop_offset (h : AdjRep a P) {i k : Nat} (hi : i ≤ a.leftCount)
    (hk : a.offsetFor (i + 1) = some k) :
    k ≤ P.length ∧ ∀ j (hj : j < P.length), (k ≤ j ↔ i < P[j].1) := by
  obtain ⟨k', hk', hle, hj⟩ := a.offsetFor_spec hi
  obtain rfl : k = k' := by rw [hk] at hk'; exact Option.some.inj hk'
  refine ⟨by rw [← h.len]; exact hle, fun j hjl => ?_⟩
  rw [hj j, h.left j hjl]; omega

/-- A left that has entries has its offset inside. -/
theorem offset_lt (h : AdjRep a P) {i k : Nat} (hi : i < a.leftCount)
    (hk : a.offsetFor (i + 1) = some k) : k < P.length := by
  have h1 := a.offsetFor_ones (Nat.le_of_lt hi) hk
  have h2 := (h.drop_offset (Nat.le_of_lt hi) hk).1
  by_contra hh
  have : k = P.length := by omega
  rw [this, h.ones_end] at h1
  omega

end AdjRep

/-- A filter by a threshold on positions is a drop. -/
theorem drop_eq_filter {α : Type _} (P : List α) (f : α → Bool) (k : Nat)
    (h : ∀ j (hj : j < P.length), (k ≤ j ↔ f P[j] = true)) : P.drop k = P.filter f := by
  induction P generalizing k with
  | nil => simp
  | cons x xs ih =>
    cases k with
    | zero =>
      rw [List.drop_zero, List.filter_eq_self.2]
      intro a ha
      obtain ⟨j, hj, rfl⟩ := List.getElem_of_mem ha
      exact (h j hj).1 (Nat.zero_le _)
    | succ k =>
      have h0 := h 0 (by simp)
      have hx : ¬ f x = true := fun hx => by
        have := h0.2 hx
        omega
      rw [List.drop_succ_cons, List.filter_cons_of_neg hx]
      exact ih k fun j hj => by
        have := h (j + 1) (by simp; omega)
        simpa using this

end Verif
