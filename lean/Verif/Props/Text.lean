import Verif.Lemmas.Text

/-!
Properties of the text forms of names and labels: C36, C40.
-/

namespace Verif.Spec

/-- A lower case hexadecimal digit. -/
def LowerHex (c : Nat) : Prop := (48 ≤ c ∧ c ≤ 57) ∨ (97 ≤ c ∧ c ≤ 102)

/-- A hexadecimal digit. -/
def Hex (c : Nat) : Prop := LowerHex c ∨ (65 ≤ c ∧ c ≤ 70)

/-- A decimal digit. -/
def Dec (c : Nat) : Prop := 48 ≤ c ∧ c ≤ 57

/-- The decimal number that a text of digits stands for, the digits before it having the value
`acc`. -/
def decValue : Nat → List Nat → Nat
  | acc, [] => acc
  | acc, c :: t => decValue (10 * acc + (c - 48)) t

end Verif.Spec

namespace Verif

open Spec

/-! ### C40 -/

/-- C40: the text of a name has 40 characters, all lower case hexadecimal digits. -/
theorem C40_name_text (n : LayerName) :
    (nameToString n).length = 40 ∧ ∀ c ∈ nameToString n, LowerHex c := by
  refine ⟨nameToString_length n, fun c hc => ?_⟩
  obtain ⟨d, hd, rfl⟩ := nameToString_mem hc
  unfold LowerHex digitChar
  split <;> omega

/-- C40: reading the text of a name gives the name. -/
theorem C40_round_trip (n : LayerName) : stringToName (nameToString n) = .ok n :=
  stringToName_nameToString n

/-- C40: different names have different texts. -/
theorem C40_injective (n m : LayerName) (h : nameToString n = nameToString m) : n = m := by
  have hn := stringToName_nameToString n
  rw [h, stringToName_nameToString] at hn
  injection hn with hn
  exact hn.symm

/-- C40: a text that is not 40 bytes long is rejected, and so are bytes. -/
theorem C40_other_length (t : Text) (h : t.len ≠ 40) : stringToName t = .err := by
  unfold stringToName; rw [if_pos h]

/-- C40: bytes that are not 40 are rejected. -/
theorem C40_other_length_bytes (b : Bytes) (h : b.length ≠ 40) : bytesToName b = .err := by
  unfold bytesToName; rw [if_pos h]

/-- C40: the bytes of a name are read back. -/
theorem C40_bytes (n : LayerName) : bytesToName (nameToString n) = .ok n := by
  unfold bytesToName
  rw [if_neg (by rw [nameToString_length]; simp), utf8Lossy_ascii _ nameToString_ascii,
    stringToName_nameToString]

/-- C40: a parent file is read back, whatever follows the name in the file. -/
theorem C40_parent_file (n : LayerName) (rest : Bytes) :
    readParentFile (parentFile n ++ rest) = .ok n := by
  unfold readParentFile parentFile
  have hl := nameToString_length n
  rw [if_neg (by rw [List.length_append]; omega), ← hl, List.take_left, C40_bytes]

/-- C40: a parent file that is cut short is rejected. -/
theorem C40_parent_file_short (b : Bytes) (h : b.length < 40) : readParentFile b = .err := by
  unfold readParentFile; rw [if_pos h]

/-- C40: a rollup file is read back. -/
theorem C40_rollup_file (n : LayerName) : readRollupFile (rollupFile n) = .ok n := by
  unfold readRollupFile
  rw [utf8Lossy_ascii]
  · unfold rollupFile
    rw [Text.lines_two (decText 1) (nameToString n) decText_line (layerText_line (o := some n))]
    exact stringToName_nameToString n
  · intro c hc
    simp only [rollupFile, List.mem_append, List.mem_singleton] at hc
    rcases hc with ((hc | hc) | hc) | hc
    · exact decText_ascii c hc
    · omega
    · exact nameToString_ascii c hc
    · omega

/-! What else is read as a name. -/

theorem digitVal_hex {c d : Nat} (h : digitVal 16 c = some d) : Hex c := by
  unfold digitVal at h
  unfold Hex LowerHex
  split at h
  · omega
  · split at h
    · simp only [Option.bind_some] at h
      split at h
      · omega
      · cases h
    · split at h
      · simp only [Option.bind_some] at h
        split at h
        · omega
        · cases h
      · cases h

theorem digitVal_dec {c d : Nat} (h : digitVal 10 c = some d) : Dec c ∧ d = c - 48 := by
  unfold digitVal at h
  unfold Dec
  split at h
  · simp only [Option.bind_some] at h
    split at h
    · injection h with h; omega
    · cases h
  · split at h
    · simp only [Option.bind_some] at h
      split at h
      · omega
      · cases h
    · split at h
      · simp only [Option.bind_some] at h
        split at h
        · omega
        · cases h
      · cases h

theorem parseDigits_hex {max : Nat} {t : Text} {acc v : Nat}
    (h : parseDigits 16 max acc t = some v) : ∀ c ∈ t, Hex c := by
  induction t generalizing acc with
  | nil => intro c hc; cases hc
  | cons c t ih =>
    rw [parseDigits] at h
    cases hd : digitVal 16 c with
    | none => rw [hd] at h; cases h
    | some d =>
      rw [hd] at h
      simp only at h
      split at h
      · intro x hx
        rcases List.mem_cons.mp hx with rfl | hx
        · exact digitVal_hex hd
        · exact ih h x hx
      · cases h

theorem parseDigits_dec {max : Nat} {t : Text} {acc v : Nat}
    (h : parseDigits 10 max acc t = some v) : (∀ c ∈ t, Dec c) ∧ v = decValue acc t := by
  induction t generalizing acc with
  | nil => exact ⟨(fun c hc => by cases hc), (by injection h with h; exact h.symm)⟩
  | cons c t ih =>
    rw [parseDigits] at h
    cases hd : digitVal 10 c with
    | none => rw [hd] at h; cases h
    | some d =>
      rw [hd] at h
      simp only at h
      split at h
      · obtain ⟨h1, h2⟩ := ih h
        obtain ⟨hc, rfl⟩ := digitVal_dec hd
        refine ⟨fun x hx => ?_, ?_⟩
        · rcases List.mem_cons.mp hx with rfl | hx
          · exact hc
          · exact h1 x hx
        · have e : acc * 10 + (c - 48) = 10 * acc + (c - 48) := by omega
          rw [e] at h2
          exact h2
      · cases h

theorem Text.split_ok {t : Text} {n : Nat} {r : Text × Text} (h : t.split n = .ok r) :
    t = r.1 ++ r.2 ∧ r.1.len = n := by
  induction t generalizing n r with
  | nil =>
    rw [Text.split] at h
    split at h
    · injection h with h; subst h; subst n; exact ⟨rfl, rfl⟩
    · cases h
  | cons c t ih =>
    rw [Text.split] at h
    split at h
    · injection h with h; subst h; subst n; exact ⟨rfl, rfl⟩
    · split at h
      · rename_i hle
        cases hs : Text.split t (n - charLen c) with
        | ok q =>
          rw [hs] at h
          simp only [bind, Out.bind, pure, Out.ok.injEq] at h
          subst h
          obtain ⟨h1, h2⟩ := ih hs
          refine ⟨by rw [List.cons_append, ← h1], ?_⟩
          simp only [Text.len, List.map_cons, List.sum_cons] at h2 ⊢
          omega
        | err => rw [hs] at h; cases h
        | panic => rw [hs] at h; cases h
      · cases h

theorem Text.split_no_panic {t : Text} (ha : ∀ c ∈ t, c < 0x80) {n : Nat} (h : n ≤ t.length) :
    t.split n = .ok (t.take n, t.drop n) := by
  have := Text.split_ascii (t.take n) (t.drop n) (fun c hc => ha c (List.mem_of_mem_take hc))
  rw [List.take_append_drop, List.length_take, Nat.min_eq_left h] at this
  exact this

/-- A part of a name is read from 8 bytes: 8 hexadecimal digits, or a plus sign and 7. -/
theorem namePart_ok {t : Text} {r : U32 × Text} (h : namePart t = .ok r) :
    ∃ p, t = p ++ r.2 ∧ p.len = 8 ∧
      ((∀ c ∈ p, Hex c) ∨ ∃ q, p = 43 :: q ∧ ∀ c ∈ q, Hex c) := by
  unfold namePart at h
  cases hs : Text.split t 8 with
  | err => rw [hs] at h; cases h
  | panic => rw [hs] at h; cases h
  | ok q =>
    rw [hs] at h
    simp only [bind, Out.bind] at h
    cases hp : fromStrRadix 16 (2 ^ 32) q.1 with
    | none => rw [hp] at h; cases h
    | some v =>
      rw [hp] at h
      simp only at h
      split at h
      · injection h with h
        subst h
        obtain ⟨h1, h2⟩ := Text.split_ok hs
        refine ⟨q.1, h1, h2, ?_⟩
        cases hq : q.1 with
        | nil => exact Or.inl (fun c hc => by cases hc)
        | cons c s =>
          rw [hq, fromStrRadix] at hp
          split at hp
          · rename_i hc
            exact Or.inr ⟨s, by rw [hc.1], parseDigits_hex hp⟩
          · exact Or.inl (parseDigits_hex hp)
      · cases h

/-- The texts that are read as a name: five parts of 8 bytes, each of hexadecimal digits, the
first of which may be a plus sign. -/
theorem C40_accepted {t : Text} {n : LayerName} (h : stringToName t = .ok n) :
    t.len = 40 ∧ ∀ c ∈ t, Hex c ∨ c = 43 := by
  unfold stringToName at h
  split at h
  · cases h
  · rename_i hl
    refine ⟨by simpa using hl, ?_⟩
    have step : ∀ {t : Text} {r : U32 × Text}, namePart t = .ok r →
        (∀ c ∈ r.2, Hex c ∨ c = 43) → ∀ c ∈ t, Hex c ∨ c = 43 := by
      intro t r hr hrest c hc
      obtain ⟨p, rfl, _, hp⟩ := namePart_ok hr
      rcases List.mem_append.mp hc with hc | hc
      · rcases hp with hp | ⟨q, rfl, hq⟩
        · exact Or.inl (hp c hc)
        · rcases List.mem_cons.mp hc with rfl | hc
          · exact Or.inr rfl
          · exact Or.inl (hq c hc)
      · exact hrest c hc
    cases ha : namePart t with
    | err => rw [ha] at h; cases h
    | panic => rw [ha] at h; cases h
    | ok a =>
    rw [ha] at h
    simp only [bind, Out.bind] at h
    cases hb : namePart a.2 with
    | err => rw [hb] at h; cases h
    | panic => rw [hb] at h; cases h
    | ok b =>
    rw [hb] at h
    simp only at h
    cases hc : namePart b.2 with
    | err => rw [hc] at h; cases h
    | panic => rw [hc] at h; cases h
    | ok c =>
    rw [hc] at h
    simp only at h
    cases hd : namePart c.2 with
    | err => rw [hd] at h; cases h
    | panic => rw [hd] at h; cases h
    | ok d =>
    rw [hd] at h
    simp only at h
    cases he : namePart d.2 with
    | err => rw [he] at h; cases h
    | panic => rw [he] at h; cases h
    | ok e =>
    refine step ha (step hb (step hc (step hd (step he ?_))))
    intro x hx
    exfalso
    obtain ⟨pa, ea, la, _⟩ := namePart_ok ha
    obtain ⟨pb, eb, lb, _⟩ := namePart_ok hb
    obtain ⟨pc, ec, lc, _⟩ := namePart_ok hc
    obtain ⟨pd, ed, ld, _⟩ := namePart_ok hd
    obtain ⟨pe, ee, le, _⟩ := namePart_ok he
    have hlen : t.len = 40 := by simpa using hl
    rw [ea, eb, ec, ed, ee] at hlen
    simp only [Text.len, List.map_append, List.sum_append] at hlen la lb lc ld le
    have : Text.len e.2 = 0 := by unfold Text.len; omega
    obtain ⟨s, u, hsu⟩ := List.append_of_mem hx
    rw [hsu] at this
    simp only [Text.len, List.map_append, List.sum_append, List.map_cons, List.sum_cons] at this
    have hpos : 0 < Text.charLen x := by unfold Text.charLen; (repeat' split) <;> omega
    omega

/-- A text of ASCII characters is never read as a name with a panic. -/
theorem C40_ascii_no_panic {t : Text} (ha : ∀ c ∈ t, c < 0x80) : stringToName t ≠ .panic := by
  unfold stringToName
  split
  · simp
  · rename_i hl
    have hl : t.length = 40 := by rw [Text.len_ascii t ha] at hl; simpa using hl
    have part : ∀ (k : Nat) (s : Text), (∀ c ∈ s, c < 0x80) → s.length = k + 8 →
        namePart s = .err ∨ ∃ r, namePart s = .ok r ∧ r.2.length = k ∧ ∀ c ∈ r.2, c < 0x80 := by
      intro k s hs hk
      unfold namePart
      rw [Text.split_no_panic hs (by omega)]
      simp only [bind, Out.bind]
      cases fromStrRadix 16 (2 ^ 32) (s.take 8) with
      | none => exact Or.inl rfl
      | some v =>
        simp only
        split
        · exact Or.inr ⟨_, rfl, by rw [List.length_drop, hk]; omega,
            fun c hc => hs c (List.mem_of_mem_drop hc)⟩
        · exact Or.inl rfl
    rcases part 32 t ha hl with h | ⟨a, h, la, ha⟩
    · simp [h, bind, Out.bind]
    rcases part 24 a.2 ha la with h' | ⟨b, h', lb, hb⟩
    · simp [h, h', bind, Out.bind]
    rcases part 16 b.2 hb lb with h'' | ⟨c, h'', lc, hc⟩
    · simp [h, h', h'', bind, Out.bind]
    rcases part 8 c.2 hc lc with h3 | ⟨d, h3, ld, hd⟩
    · simp [h, h', h'', h3, bind, Out.bind]
    rcases part 0 d.2 hd (by omega) with h4 | ⟨e, h4, _, _⟩
    · simp [h, h', h'', h3, h4, bind, Out.bind]
    · simp [h, h', h'', h3, h4, bind, Out.bind, pure]

/-- A name used in the examples. -/
def sampleName : LayerName := ⟨⟨0xdeadbeef, by decide⟩, ⟨1, by decide⟩, ⟨0, by decide⟩,
  ⟨0x00abcdef, by decide⟩, ⟨0xffffffff, by decide⟩⟩

/-- The text `deadbeef000000010000000000abcdefffffffff`. -/
example : nameToString sampleName = "deadbeef000000010000000000abcdefffffffff".toList.map Char.toNat := by
  decide
example : stringToName (nameToString sampleName) = .ok sampleName := C40_round_trip _
example : readRollupFile (rollupFile sampleName) = .ok sampleName := C40_rollup_file _
example : Text.len [48, 48] ≠ 40 := by decide

/-- 40 bytes that are not a name can make `string_to_name` panic: the 8th byte is inside the
two bytes of a character. -/
theorem C40_panics : stringToName (List.replicate 7 48 ++ [233] ++ List.replicate 31 48) = .panic := by
  decide

/-! ### C36 -/

/-- C36: writing a label and reading it back gives the same label. -/
theorem C36_round_trip (l : LabelData LayerName) (hv : l.version < 2 ^ 64) :
    readLabelFile (labelFile l) = .ok l :=
  readLabelFile_labelFile l hv

example : readLabelFile (labelFile ⟨some sampleName, 12345⟩) = .ok ⟨some sampleName, 12345⟩ :=
  C36_round_trip _ (by decide)
example : readLabelFile (labelFile ⟨none, 0⟩) = .ok ⟨none, 0⟩ := by decide

/-- C36: different labels have different files. -/
theorem C36_injective (l m : LabelData LayerName) (hl : l.version < 2 ^ 64)
    (hm : m.version < 2 ^ 64) (h : labelFile l = labelFile m) : l = m := by
  have h1 := readLabelFile_labelFile l hl
  rw [h, readLabelFile_labelFile m hm] at h1
  injection h1 with h1
  exact h1.symm

/-- C36, the accepted files: two lines, the first of decimal digits (perhaps after a plus
sign) that stand for the version, the second empty or 40 bytes of hexadecimal digits and plus
signs that are read as the layer. Missing for the full claim: a plus sign, upper case digits
and other line ends are accepted too, and files that are not ASCII can panic
(`C36_plus_accepted`, `C36_panics`). -/
theorem C36_accepted_partial {b : Bytes} {l : LabelData LayerName}
    (h : readLabelFile b = .ok l) :
    ∃ v t, (utf8Lossy b).lines = [v, t] ∧ v ≠ [] ∧
      (∃ ds, (v = ds ∨ v = 43 :: ds) ∧ (∀ c ∈ ds, Dec c) ∧ l.version = decValue 0 ds) ∧
      ((t = [] ∧ l.layer = none) ∨
        (t.len = 40 ∧ (∀ c ∈ t, Hex c ∨ c = 43) ∧ ∃ n, stringToName t = .ok n ∧ l.layer = some n)) := by
  unfold readLabelFile at h
  split at h
  · rename_i v t hlines
    refine ⟨v, t, hlines, ?_⟩
    cases hv : fromStrRadix 10 (2 ^ 64) v with
    | none => rw [hv] at h; cases h
    | some version =>
      rw [hv] at h
      simp only at h
      have hver : v ≠ [] ∧ ∃ ds, (v = ds ∨ v = 43 :: ds) ∧ (∀ c ∈ ds, Dec c) ∧
          version = decValue 0 ds := by
        cases v with
        | nil => cases hv
        | cons c s =>
          refine ⟨by simp, ?_⟩
          rw [fromStrRadix] at hv
          split at hv
          · rename_i hc
            obtain ⟨h1, h2⟩ := parseDigits_dec hv
            exact ⟨s, Or.inr (by rw [hc.1]), h1, h2⟩
          · obtain ⟨h1, h2⟩ := parseDigits_dec hv
            exact ⟨c :: s, Or.inl rfl, h1, h2⟩
      split at h
      · rename_i ht
        injection h with h
        subst h
        exact ⟨hver.1, hver.2, Or.inl ⟨ht, rfl⟩⟩
      · cases hn : stringToName t with
        | err => rw [hn] at h; cases h
        | panic => rw [hn] at h; cases h
        | ok n =>
          rw [hn] at h
          injection h with h
          subst h
          obtain ⟨h1, h2⟩ := C40_accepted hn
          exact ⟨hver.1, hver.2, Or.inr ⟨h1, h2, n, rfl, rfl⟩⟩
  · cases h

theorem Text.lines_mem {t l : Text} (h : l ∈ t.lines) {c : Nat} (hc : c ∈ l) : c ∈ t := by
  induction t using Text.lines.induct generalizing l with
  | case1 => cases h
  | case2 t ih =>
    rw [Text.lines] at h
    rcases List.mem_cons.mp h with rfl | h
    · cases hc
    · exact List.mem_cons_of_mem _ (List.mem_cons_of_mem _ (ih h hc))
  | case3 t ih =>
    rw [Text.lines] at h
    rcases List.mem_cons.mp h with rfl | h
    · cases hc
    · exact List.mem_cons_of_mem _ (ih h hc)
  | case4 d t h1 h2 ih =>
    rw [Text.lines] at h
    · cases hl : Text.lines t with
      | nil =>
        rw [hl] at h
        simp only [Text.consLine, List.mem_singleton] at h
        subst h
        simp only [List.mem_singleton] at hc
        subst hc; simp
      | cons k ks =>
        rw [hl] at h
        simp only [Text.consLine, List.mem_cons] at h
        rcases h with rfl | h
        · rcases List.mem_cons.mp hc with rfl | hc
          · simp
          · exact List.mem_cons_of_mem _ (ih (by rw [hl]; simp) hc)
        · exact List.mem_cons_of_mem _ (ih (by rw [hl]; simp [h]) hc)
    · exact h1
    · exact h2

/-- C36: a file of ASCII characters is read as a label or rejected with an error, never with a
panic. -/
theorem C36_ascii_no_panic_partial {b : Bytes} (ha : ∀ c ∈ b, c < 0x80) : readLabelFile b ≠ .panic := by
  unfold readLabelFile
  rw [utf8Lossy_ascii b ha]
  split
  · rename_i v t hlines
    split
    · simp
    · split
      · simp
      · have := C40_ascii_no_panic (t := t)
          (fun c hc => ha c (Text.lines_mem (by rw [hlines]; simp) hc))
        cases hn : stringToName t with
        | ok n => simp [bind, Out.bind, pure]
        | err => simp [bind, Out.bind]
        | panic => exact absurd hn this
  · simp

example : readLabelFile [48] = .err := by decide

/-- The file `+7`, carriage return, line feed, carriage return, line feed is accepted. -/
theorem C36_plus_accepted : readLabelFile [43, 55, 13, 10, 13, 10] = .ok ⟨none, 7⟩ := by decide

/-- A label file with a line of 40 bytes that has a character of two bytes across the 8th byte
makes the reader panic. -/
theorem C36_panics : readLabelFile ([48, 10] ++ List.replicate 7 48 ++ [0xC3, 0xA9] ++
    List.replicate 31 48 ++ [10]) = .panic := by decide

end Verif
