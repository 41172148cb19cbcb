import Verif.Model.Crash
import Verif.Lemmas.LabelFile

/-!
Names as numbers, and the rollup files that are cut off.
-/

namespace Verif

theorem num_layerName {n : Name} (h : n < nameLimit) : (layerName n).num = n := by
  have key : ∀ m : Nat, m < 2 ^ 160 →
      (((m / 2 ^ 128 % 2 ^ 32 * 2 ^ 32 + m / 2 ^ 96 % 2 ^ 32) * 2 ^ 32 + m / 2 ^ 64 % 2 ^ 32) * 2 ^ 32 +
        m / 2 ^ 32 % 2 ^ 32) * 2 ^ 32 + m % 2 ^ 32 = m := by
    intro m hm
    omega
  exact key n h

theorem num_lt (n : LayerName) : n.num < nameLimit := by
  obtain ⟨⟨a, ha⟩, ⟨b, hb⟩, ⟨c, hc⟩, ⟨d, hd⟩, ⟨e, he⟩⟩ := n
  show (((a * 2 ^ 32 + b) * 2 ^ 32 + c) * 2 ^ 32 + d) * 2 ^ 32 + e < (2 ^ 160 : Nat)
  omega

theorem num_step (a b : Nat) (hb : b < 2 ^ 32) :
    (a * 2 ^ 32 + b) / 2 ^ 32 = a ∧ (a * 2 ^ 32 + b) % 2 ^ 32 = b := by omega

theorem div_step (n k : Nat) : n / 2 ^ (k + 32) = n / 2 ^ 32 / 2 ^ k := by
  rw [Nat.div_div_eq_div_mul, Nat.pow_add, Nat.mul_comm]

theorem layerName_num (n : LayerName) : layerName n.num = n := by
  obtain ⟨⟨a, ha⟩, ⟨b, hb⟩, ⟨c, hc⟩, ⟨d, hd⟩, ⟨e, he⟩⟩ := n
  simp only [LayerName.num, layerName, u32, LayerName.mk.injEq, Fin.mk.injEq]
  have h1 := num_step 0 a ha
  have h2 := num_step a b hb
  have h3 := num_step (a * 2 ^ 32 + b) c hc
  have h4 := num_step ((a * 2 ^ 32 + b) * 2 ^ 32 + c) d hd
  have h5 := num_step (((a * 2 ^ 32 + b) * 2 ^ 32 + c) * 2 ^ 32 + d) e he
  rw [Nat.zero_mul, Nat.zero_add] at h1
  refine ⟨?_, ?_, ?_, ?_, h5.2⟩
  · rw [div_step _ 96, div_step _ 64, div_step _ 32, h5.1, h4.1, h3.1, h2.1]; exact h1.2
  · rw [div_step _ 64, div_step _ 32, h5.1, h4.1, h3.1]; exact h2.2
  · rw [div_step _ 32, h5.1, h4.1]; exact h3.2
  · rw [h5.1]; exact h4.2

/-- The number of bytes of a rollup file. -/
theorem rollupFile_length (n : LayerName) : (rollupFile n).length = 43 := by
  simp [rollupFile, nameToString_length, show (decText 1).length = 1 from rfl]

theorem rollupFile_ascii (n : LayerName) : ∀ c ∈ rollupFile n, c < 0x80 := by
  have := labelFile_ascii (l := ⟨some n, 1⟩)
  exact this

theorem rollupFile_eq (n : LayerName) : rollupFile n = [49, 10] ++ nameToString n ++ [10] := rfl

theorem drop_rollupFile (n : LayerName) : (rollupFile n).drop 42 = [10] := by
  rw [rollupFile_eq, List.drop_append_of_le_length (by simp [nameToString_length])]
  rw [List.drop_of_length_le (by simp [nameToString_length])]
  rfl

theorem readRollupFile_two {b : Bytes} (h : ∀ c ∈ b, c < 0x80) {k l : Text}
    (hl : Text.lines b = [k, l]) : readRollupFile b = stringToName l := by
  unfold readRollupFile
  rw [utf8Lossy_ascii b h, hl]

/-- A rollup file that ends before the end of the name is rejected. -/
theorem readRollupFile_short (n : LayerName) {i : Nat} (h : i < 42) :
    readRollupFile ((rollupFile n).take i) = .err := by
  unfold readRollupFile
  rw [utf8Lossy_ascii _ (fun c hc => rollupFile_ascii n c (List.mem_of_mem_take hc))]
  rw [rollupFile_eq, List.take_append_of_le_length (by simp [nameToString_length]; omega)]
  match i, h with
  | 0, _ => rfl
  | 1, _ => rfl
  | i + 2, h =>
    have e : ([49, 10] ++ nameToString n).take (i + 2) = [49] ++ 10 :: (nameToString n).take i := rfl
    rw [e, Text.lines_line [49] _ (by decide)]
    rcases Text.lines_short ((nameToString n).take i) (fun c hc =>
      layerText_line (o := some n) c (List.mem_of_mem_take hc)) with h' | ⟨_, h'⟩ <;> rw [h']
    have hl : Text.len ((nameToString n).take i) ≠ 40 := by
      rw [Text.len_ascii _ (fun c hc => nameToString_ascii c (List.mem_of_mem_take hc)),
        List.length_take, nameToString_length]
      omega
    show stringToName ((nameToString n).take i) = .err
    unfold stringToName
    rw [if_pos hl]

/-- A rollup file is read, with or without the end of the last line. -/
theorem readRollupFile_long (n : LayerName) {i : Nat} (h : 42 ≤ i) :
    readRollupFile ((rollupFile n).take i) = .ok n := by
  have hasc : ∀ c ∈ (rollupFile n).take i, c < 0x80 := fun c hc =>
    rollupFile_ascii n c (List.mem_of_mem_take hc)
  rw [← stringToName_nameToString n]
  by_cases h3 : 43 ≤ i
  · have e : (rollupFile n).take i = decText 1 ++ [10] ++ nameToString n ++ [10] :=
      List.take_of_length_le (by rw [rollupFile_length]; exact h3)
    refine readRollupFile_two hasc (k := decText 1) ?_
    rw [e]
    exact Text.lines_two (decText 1) (nameToString n) decText_line (layerText_line (o := some n))
  · have : i = 42 := by omega
    subst this
    have hl : ([49, 10] ++ nameToString n).length = 42 := by simp [nameToString_length]
    have e : (rollupFile n).take 42 = [49] ++ 10 :: nameToString n := by
      rw [rollupFile_eq, List.take_left' hl]
      rfl
    have hne : nameToString n ≠ [] := by
      intro e; have := nameToString_length n; rw [e] at this; cases this
    refine readRollupFile_two hasc (k := [49]) ?_
    rw [e, Text.lines_line [49] _ (by decide),
      Text.lines_last (nameToString n) (layerText_line (o := some n)) hne]

/-! ### Overwriting -/

/-- The contents a rollup file can have: at most the 43 bytes, and the last one ends the line. -/
def Shaped (b : Bytes) : Prop := b.drop 42 = [] ∨ b.drop 42 = [10]

/-- The file names the rollup, perhaps without the end of the line. -/
def Names (b : Bytes) (r : Name) : Prop :=
  ∃ i, 42 ≤ i ∧ b = (rollupFile (layerName r)).take i

theorem Names.read {b : Bytes} {r : Name} (h : Names b r) : readRollupFile b = .ok (layerName r) := by
  obtain ⟨i, h1, rfl⟩ := h
  exact readRollupFile_long _ h1

theorem Names.shaped {b : Bytes} {r : Name} (h : Names b r) : Shaped b := by
  obtain ⟨i, h1, rfl⟩ := h
  unfold Shaped
  rw [List.drop_take, drop_rollupFile]
  cases i - 42 with
  | zero => left; rfl
  | succ j => right; cases j <;> rfl

theorem Registering.contents_length (g : Registering) : g.contents.length = 43 :=
  rollupFile_length _

theorem Registering.part_shaped {g : Registering} (h : Shaped g.old) {i : Nat} (hi : i ≤ 42) :
    Shaped (g.part i) := by
  have hl : (g.contents.take i).length = i := by
    rw [List.length_take, g.contents_length]; omega
  have : (g.part i).drop 42 = g.old.drop 42 := by
    unfold Registering.part
    rw [List.drop_append, hl, List.drop_of_length_le (by omega), List.nil_append, List.drop_drop]
    congr 1
    omega
  unfold Shaped
  rw [this]
  exact h

theorem Registering.part_names {g : Registering} (h : Shaped g.old) {i : Nat} (hi : 42 ≤ i) :
    Names (g.part i) g.rollup := by
  unfold Registering.part Names
  have hlen : g.old.length ≤ 43 := by
    have := congrArg List.length (List.take_append_drop 42 g.old)
    rw [List.length_append, List.length_take] at this
    rcases h with h | h <;> rw [h] at this <;> simp at this <;> omega
  by_cases h3 : 43 ≤ i
  · refine ⟨43, by omega, ?_⟩
    rw [List.take_of_length_le (by rw [g.contents_length]; exact h3),
      List.drop_of_length_le (by omega), List.append_nil,
      List.take_of_length_le (by rw [rollupFile_length])]
    rfl
  · have : i = 42 := by omega
    subst this
    rcases h with h | h <;> rw [h]
    · exact ⟨42, Nat.le_refl _, by rw [List.append_nil]; rfl⟩
    · refine ⟨43, by omega, ?_⟩
      rw [List.take_of_length_le (l := rollupFile _) (by rw [rollupFile_length])]
      have := List.take_append_drop 42 (rollupFile (layerName g.rollup))
      rw [drop_rollupFile] at this
      exact this

/-- A file that was empty when it was opened. -/
theorem Registering.part_first {g : Registering} (h : g.old = []) (i : Nat) :
    g.part i = (rollupFile (layerName g.rollup)).take i := by
  unfold Registering.part
  rw [h, List.drop_nil, List.append_nil]
  rfl

end Verif
