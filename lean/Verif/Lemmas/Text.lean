import Verif.Model.Text

/-!
Lemmas about the text forms.
-/

namespace Verif

/-! ### Lossy decoding -/

theorem utf8Lossy_ascii (b : Bytes) (h : ∀ c ∈ b, c < 0x80) : utf8Lossy b = b := by
  unfold utf8Lossy
  induction b with
  | nil => rfl
  | cons c t ih =>
    have hc : c < 0x80 := h c (by simp)
    have : utf8Start c = ([c], none) := by unfold utf8Start; rw [if_pos hc]
    rw [utf8Go, this]
    simp only [List.singleton_append]
    rw [ih (fun x hx => h x (by simp [hx]))]

/-! ### Digits -/

theorem digitVal_digitChar {radix d : Nat} (hd : d < radix) (hr : radix ≤ 16) :
    digitVal radix (digitChar d) = some d := by
  unfold digitVal digitChar
  by_cases h : d < 10
  · rw [if_pos h, if_pos (by omega)]
    simp only [Nat.add_sub_cancel_left, Option.bind_some, if_pos hd]
  · rw [if_neg h, if_neg (by omega), if_pos (by omega)]
    simp only [Nat.add_sub_cancel_left, Option.bind_some, if_pos hd]

theorem digitChar_lt (d : Nat) (hd : d < 16) : digitChar d < 0x80 := by
  unfold digitChar; split <;> omega

theorem digitChar_ne (d : Nat) (hd : d < 16) :
    digitChar d ≠ 10 ∧ digitChar d ≠ 13 ∧ digitChar d ≠ 43 := by
  unfold digitChar; split <;> omega

theorem parseDigits_append (radix max : Nat) (s t : Text) (acc : Nat) :
    parseDigits radix max acc (s ++ t) =
      (parseDigits radix max acc s).bind (fun a => parseDigits radix max a t) := by
  induction s generalizing acc with
  | nil => rfl
  | cons c s ih =>
    simp only [List.cons_append, parseDigits]
    cases digitVal radix c with
    | none => rfl
    | some d =>
      simp only
      split
      · exact ih _
      · rfl

theorem parseDigits_digit {radix max d acc : Nat} (hd : d < radix) (hr : radix ≤ 16)
    (h : acc * radix + d < max) :
    parseDigits radix max acc [digitChar d] = some (acc * radix + d) := by
  simp [parseDigits, digitVal_digitChar hd hr, h]

/-! ### Hexadecimal -/

theorem hexText_length (w n : Nat) : (hexText w n).length = w := by
  induction w generalizing n with
  | zero => rfl
  | succ w ih => simp [hexText, ih]

theorem hexText_mem {w n c : Nat} (h : c ∈ hexText w n) : ∃ d, d < 16 ∧ c = digitChar d := by
  induction w generalizing n with
  | zero => cases h
  | succ w ih =>
    rw [hexText, List.mem_append] at h
    rcases h with h | h
    · exact ih h
    · exact ⟨n % 16, Nat.mod_lt _ (by omega), by simpa using h⟩

theorem parseDigits_hexText (max w n : Nat) (hn : n < 16 ^ w) (hm : 16 ^ w ≤ max) :
    parseDigits 16 max 0 (hexText w n) = some n := by
  induction w generalizing n with
  | zero =>
    have : n = 0 := by simpa using hn
    subst this; rfl
  | succ w ih =>
    rw [hexText, parseDigits_append, ih (n / 16) (by rw [Nat.pow_succ] at hn; omega)
      (by rw [Nat.pow_succ] at hm; omega)]
    have := parseDigits_digit (radix := 16) (max := max) (d := n % 16) (acc := n / 16)
      (Nat.mod_lt _ (by omega)) (by omega) (by omega)
    simp only [Option.bind_some]
    rw [this]
    congr 1
    omega

theorem fromStrRadix_digits {radix max d v : Nat} {t : Text} (hd : d < 16)
    (h : parseDigits radix max 0 (digitChar d :: t) = some v) :
    fromStrRadix radix max (digitChar d :: t) = some v := by
  have := digitChar_ne d hd
  simp only [fromStrRadix]
  rw [if_neg (fun q => this.2.2 q.1), h]

theorem fromStrRadix_hexText (max w n : Nat) (hw : 0 < w) (hn : n < 16 ^ w) (hm : 16 ^ w ≤ max) :
    fromStrRadix 16 max (hexText w n) = some n := by
  have hp := parseDigits_hexText max w n hn hm
  have hl := hexText_length w n
  cases he : hexText w n with
  | nil => rw [he] at hl; simp at hl; omega
  | cons c t =>
    obtain ⟨d, hd, rfl⟩ := hexText_mem (w := w) (n := n) (c := c) (by rw [he]; simp)
    rw [he] at hp
    exact fromStrRadix_digits hd hp

/-! ### Decimal -/

theorem decLoop_spec (max : Nat) (f n : Nat) (hf : n < f) (hm : n < max) :
    decLoop f n ≠ [] ∧ (∀ c ∈ decLoop f n, ∃ d, d < 10 ∧ c = digitChar d) ∧
      parseDigits 10 max 0 (decLoop f n) = some n := by
  induction f generalizing n with
  | zero => omega
  | succ f ih =>
    rw [decLoop]
    by_cases h : n < 10
    · rw [if_pos h]
      refine ⟨by simp, ?_, ?_⟩
      · intro c hc
        exact ⟨n, h, by simpa using hc⟩
      · have := parseDigits_digit (radix := 10) (max := max) (d := n) (acc := 0) h (by omega)
          (by omega)
        rw [this]; congr 1; omega
    · rw [if_neg h]
      obtain ⟨_, h2, h3⟩ := ih (n / 10) (by omega) (by omega)
      refine ⟨by simp, ?_, ?_⟩
      · intro c hc
        rw [List.mem_append] at hc
        rcases hc with hc | hc
        · exact h2 c hc
        · exact ⟨n % 10, Nat.mod_lt _ (by omega), by simpa using hc⟩
      · rw [parseDigits_append, h3, Option.bind_some,
          parseDigits_digit (Nat.mod_lt _ (by omega)) (by omega) (by omega)]
        congr 1; omega

theorem decText_mem {n c : Nat} (h : c ∈ decText n) : ∃ d, d < 10 ∧ c = digitChar d :=
  (decLoop_spec (n + 1) (n + 1) n (by omega) (by omega)).2.1 c h

theorem decText_ne (n : Nat) : decText n ≠ [] :=
  (decLoop_spec (n + 1) (n + 1) n (by omega) (by omega)).1

theorem fromStrRadix_decText (max n : Nat) (hm : n < max) :
    fromStrRadix 10 max (decText n) = some n := by
  have hp := (decLoop_spec max (n + 1) n (by omega) hm).2.2
  cases he : decText n with
  | nil => exact absurd he (decText_ne n)
  | cons c t =>
    obtain ⟨d, hd, rfl⟩ := decText_mem (n := n) (c := c) (by rw [he]; simp)
    unfold decText at he
    rw [he] at hp
    exact fromStrRadix_digits (by omega) hp

/-! ### Names -/

theorem Text.len_ascii (t : Text) (h : ∀ c ∈ t, c < 0x80) : t.len = t.length := by
  unfold Text.len
  induction t with
  | nil => rfl
  | cons c t ih =>
    have hc : Text.charLen c = 1 := by unfold Text.charLen; rw [if_pos (h c (by simp))]
    simp only [List.map_cons, List.sum_cons, List.length_cons, hc]
    rw [ih (fun x hx => h x (by simp [hx]))]; omega

theorem Text.split_ascii (s t : Text) (h : ∀ c ∈ s, c < 0x80) :
    Text.split (s ++ t) s.length = .ok (s, t) := by
  induction s with
  | nil => cases t <;> rfl
  | cons c s ih =>
    have hc : Text.charLen c = 1 := by unfold Text.charLen; rw [if_pos (h c (by simp))]
    simp only [List.cons_append, List.length_cons, Text.split, hc]
    rw [if_neg (by omega), if_pos (by omega), Nat.add_sub_cancel,
      ih (fun x hx => h x (by simp [hx]))]
    rfl

theorem hexText_ascii {w n : Nat} : ∀ c ∈ hexText w n, c < 0x80 := by
  intro c hc
  obtain ⟨d, hd, rfl⟩ := hexText_mem hc
  exact digitChar_lt d hd

theorem namePart_hex (v : U32) (t : Text) : namePart (hexText 8 v ++ t) = .ok (v, t) := by
  have h := Text.split_ascii (hexText 8 v) t hexText_ascii
  rw [hexText_length] at h
  unfold namePart
  have hp : fromStrRadix 16 (2 ^ 32) (hexText 8 v) = some v.val :=
    fromStrRadix_hexText (2 ^ 32) 8 v (by omega) (by have := v.isLt; omega) (by omega)
  simp only [h, bind, Out.bind, hp]
  rw [dif_pos v.isLt]

theorem nameToString_mem {n : LayerName} {c : Nat} (h : c ∈ nameToString n) :
    ∃ d, d < 16 ∧ c = digitChar d := by
  simp only [nameToString, List.mem_append] at h
  rcases h with (((h | h) | h) | h) | h <;> exact hexText_mem h

theorem nameToString_ascii {n : LayerName} : ∀ c ∈ nameToString n, c < 0x80 := by
  intro c hc
  obtain ⟨d, hd, rfl⟩ := nameToString_mem hc
  exact digitChar_lt d hd

theorem nameToString_length (n : LayerName) : (nameToString n).length = 40 := by
  simp [nameToString, hexText_length]

theorem stringToName_nameToString (n : LayerName) : stringToName (nameToString n) = .ok n := by
  unfold stringToName
  rw [Text.len_ascii _ nameToString_ascii, nameToString_length]
  rw [if_neg (by simp)]
  have e : nameToString n = hexText 8 n.a ++ (hexText 8 n.b ++ (hexText 8 n.c ++
      (hexText 8 n.d ++ (hexText 8 n.e ++ [])))) := by
    simp [nameToString, List.append_assoc]
  rw [e]
  simp only [namePart_hex, bind, Out.bind, pure]

/-! ### Lines -/

theorem Text.lines_line (l t : Text) (h : ∀ c ∈ l, c ≠ 10 ∧ c ≠ 13) :
    Text.lines (l ++ 10 :: t) = l :: Text.lines t := by
  induction l with
  | nil => rw [List.nil_append, Text.lines]
  | cons c l ih =>
    have hc := h c (by simp)
    rw [List.cons_append, Text.lines]
    · rw [ih (fun x hx => h x (by simp [hx]))]; rfl
    · exact fun _ h1 _ => hc.2 h1
    · exact hc.1

theorem Text.lines_last (l : Text) (h : ∀ c ∈ l, c ≠ 10 ∧ c ≠ 13) (hl : l ≠ []) :
    Text.lines l = [l] := by
  induction l with
  | nil => exact absurd rfl hl
  | cons c l ih =>
    have hc := h c (by simp)
    rw [Text.lines]
    · cases l with
      | nil => rfl
      | cons d l => rw [ih (fun x hx => h x (by simp [hx])) (by simp)]; rfl
    · exact fun _ h1 _ => hc.2 h1
    · exact hc.1

/-- Two lines, both ended. -/
theorem Text.lines_two (k l : Text) (hk : ∀ c ∈ k, c ≠ 10 ∧ c ≠ 13)
    (hl : ∀ c ∈ l, c ≠ 10 ∧ c ≠ 13) : Text.lines (k ++ [10] ++ l ++ [10]) = [k, l] := by
  rw [show k ++ [10] ++ l ++ [10] = k ++ 10 :: (l ++ 10 :: []) by simp]
  rw [Text.lines_line k _ hk, Text.lines_line l _ hl, Text.lines]

theorem decText_ascii {n : Nat} : ∀ c ∈ decText n, c < 0x80 := by
  intro c hc
  obtain ⟨d, hd, rfl⟩ := decText_mem hc
  exact digitChar_lt d (by omega)

theorem decText_line {n : Nat} : ∀ c ∈ decText n, c ≠ 10 ∧ c ≠ 13 := by
  intro c hc
  obtain ⟨d, hd, rfl⟩ := decText_mem hc
  have := digitChar_ne d (by omega)
  exact ⟨this.1, this.2.1⟩

theorem layerText_mem {o : Option LayerName} {c : Nat} (h : c ∈ layerText o) :
    ∃ d, d < 16 ∧ c = digitChar d := by
  cases o with
  | none => cases h
  | some n => exact nameToString_mem h

theorem layerText_line {o : Option LayerName} : ∀ c ∈ layerText o, c ≠ 10 ∧ c ≠ 13 := by
  intro c hc
  obtain ⟨d, hd, rfl⟩ := layerText_mem hc
  have := digitChar_ne d hd
  exact ⟨this.1, this.2.1⟩

theorem labelFile_ascii {l : LabelData LayerName} : ∀ c ∈ labelFile l, c < 0x80 := by
  intro c hc
  simp only [labelFile, List.mem_append, List.mem_singleton] at hc
  rcases hc with ((hc | hc) | hc) | hc
  · exact decText_ascii c hc
  · omega
  · obtain ⟨d, hd, rfl⟩ := layerText_mem hc; exact digitChar_lt d hd
  · omega

theorem readLabelFile_labelFile (l : LabelData LayerName) (hv : l.version < 2 ^ 64) :
    readLabelFile (labelFile l) = .ok l := by
  unfold readLabelFile
  rw [utf8Lossy_ascii _ labelFile_ascii]
  unfold labelFile
  rw [Text.lines_two _ _ decText_line layerText_line]
  simp only [fromStrRadix_decText _ _ hv]
  obtain ⟨layer, v⟩ := l
  cases layer with
  | none => rfl
  | some n =>
    have : nameToString n ≠ [] := by
      intro h; have := nameToString_length n; rw [h] at this; simp at this
    show (if nameToString n = [] then Out.ok _ else _) = _
    rw [if_neg this]
    show (stringToName (nameToString n) >>= _) = _
    rw [stringToName_nameToString]
    rfl

end Verif
