import Verif.Lemmas.LabelAtomic

/-!
Label files: lengths, beginnings, names.
-/

namespace Verif

open Spec

set_option linter.unusedSectionVars false

variable {L : Type} [DecidableEq L]

/-- Larger numbers do not have fewer digits. -/
theorem decLoop_length : ∀ (f f' n m : Nat), n < f → m < f' → n ≤ m →
    (decLoop f n).length ≤ (decLoop f' m).length := by
  intro f
  induction f with
  | zero => intro f' n m h; omega
  | succ f ih =>
    intro f' n m h1 h2 h3
    cases f' with
    | zero => omega
    | succ f' =>
      rw [decLoop, decLoop]
      by_cases hm : m < 10
      · rw [if_pos (by omega), if_pos hm]
        exact Nat.le_refl _
      · rw [if_neg hm]
        by_cases hn : n < 10
        · rw [if_pos hn]
          simp
        · rw [if_neg hn]
          simp only [List.length_append, List.length_singleton]
          have := ih f' (n / 10) (m / 10) (by omega) (by omega) (by omega)
          omega

theorem decText_length {n m : Nat} (h : n ≤ m) : (decText n).length ≤ (decText m).length :=
  decLoop_length _ _ _ _ (by omega) (by omega) h

theorem layerText_length (o : Option LayerName) : (layerText o).length = if o.isSome then 40 else 0 := by
  cases o with
  | none => rfl
  | some n => exact nameToString_length n

/-- An update that does not clear the label makes the file no shorter. -/
theorem labelFile_length {a b : LabelData LayerName} (hv : a.version ≤ b.version)
    (hl : a.layer ≠ none → b.layer ≠ none) : (labelFile a).length ≤ (labelFile b).length := by
  have h1 := decText_length hv
  simp only [labelFile, List.length_append, List.length_singleton, layerText_length]
  cases ha : a.layer with
  | none => simp; omega
  | some x =>
    cases hb : b.layer with
    | none => exact absurd hb (hl (by rw [ha]; simp))
    | some y => simp; omega

theorem overwrite_of_le {a b : Bytes} (h : a.length ≤ b.length) : overwrite a b = b := by
  rw [overwrite, List.drop_eq_nil_of_le h, List.append_nil]

theorem Text.lines_short (t : Text) (h : ∀ c ∈ t, c ≠ 10 ∧ c ≠ 13) :
    Text.lines t = [] ∨ t ≠ [] ∧ Text.lines t = [t] := by
  cases t with
  | nil => exact Or.inl rfl
  | cons c t => exact Or.inr ⟨by simp, Text.lines_last _ h (by simp)⟩

/-- The beginning of a label file is refused or read as the whole file. -/
theorem readLabelFile_take (l : LabelData LayerName) (hv : l.version < 2 ^ 64) (k : Nat) :
    readLabelFile ((labelFile l).take k) = .err ∨
      readLabelFile ((labelFile l).take k) = .ok l := by
  by_cases h1 : (labelFile l).length ≤ k
  · rw [List.take_of_length_le h1]
    exact Or.inr (readLabelFile_labelFile l hv)
  have hlen : (labelFile l).length = (decText l.version).length + 1 + (layerText l.layer).length + 1 := by
    simp only [labelFile, List.length_append, List.length_singleton]
  have hasc : ∀ c ∈ (labelFile l).take k, c < 0x80 := fun c hc =>
    labelFile_ascii c (List.mem_of_mem_take hc)
  have hfile : labelFile l = decText l.version ++ (10 :: (layerText l.layer ++ [10])) := by
    simp [labelFile]
  unfold readLabelFile
  rw [utf8Lossy_ascii _ hasc, hfile]
  by_cases h2 : k ≤ (decText l.version).length
  · left
    rw [List.take_append_of_le_length h2]
    rcases Text.lines_short ((decText l.version).take k) (fun c hc =>
      decText_line c (List.mem_of_mem_take hc)) with h | ⟨_, h⟩ <;> rw [h]
  · obtain ⟨j, rfl⟩ : ∃ j, k = (decText l.version).length + (j + 1) :=
      ⟨k - (decText l.version).length - 1, by omega⟩
    rw [List.take_length_add_append, List.take_succ_cons, List.take_append_of_le_length (by omega),
      Text.lines_line _ _ decText_line]
    rcases Text.lines_short ((layerText l.layer).take j) (fun c hc =>
      layerText_line c (List.mem_of_mem_take hc)) with h | ⟨hne, h⟩
    · rw [h]
      exact Or.inl rfl
    rw [h]
    simp only [fromStrRadix_decText _ _ hv]
    rw [if_neg hne]
    obtain ⟨layer, v⟩ := l
    cases layer with
    | none => exact absurd (by simp [layerText]) hne
    | some n =>
      simp only [layerText] at *
      by_cases h3 : j = 40
      · right
        rw [h3, List.take_of_length_le (by rw [nameToString_length]; exact Nat.le_refl _)]
        rw [stringToName_nameToString]
        rfl
      · left
        have hl : Text.len ((nameToString n).take j) ≠ 40 := by
          rw [Text.len_ascii _ (fun c hc => nameToString_ascii c (List.mem_of_mem_take hc)),
            List.length_take, nameToString_length]
          rw [nameToString_length] at hlen
          omega
        have hs : stringToName ((nameToString n).take j) = .err := by
          unfold stringToName
          rw [if_pos hl]
        rw [hs]
        rfl

/-! ### File names -/

theorem splitDot_label (n : Text) : splitDot (labelFileName n) = some (n, [108, 97, 98, 101, 108]) := by
  unfold labelFileName
  induction n with
  | nil => decide
  | cons c n ih => rw [List.cons_append, splitDot, ih]

/-- A label is found under its name in the listing of files, if the name is not empty. -/
theorem fileStem_label (n : Text) : fileStem (labelFileName n) = n ↔ n ≠ [] := by
  unfold fileStem
  have h : labelFileName n ≠ [46, 46] := by
    intro h
    have := congrArg List.length h
    simp [labelFileName] at this
  rw [if_neg h, splitDot_label]
  cases n with
  | nil => simp [labelFileName]
  | cons c n => simp

theorem labelFileName_inj {n m : Text} (h : labelFileName n = labelFileName m) : n = m :=
  List.append_cancel_right h

end Verif
