import Verif.Lemmas.PackParents
import Verif.Lemmas.TextExact

/-!
Which texts are read as layer names, which files as labels, and what they stand for.
-/

namespace Verif

open Spec

/-! ### C40 -/

/-- A text is read as a layer name exactly if it consists of five parts of 8 hexadecimal digits
of either case, where a plus sign may stand for the first digit of a part, and the name read
has the values of these parts. -/
theorem C40_exact {t : Text} {n : LayerName} :
    stringToName t = .ok n ↔ IsName t n.a n.b n.c n.d n.e :=
  stringToName_iff

/-- Every text of this form is read: the parts always fit in 32 bits. -/
theorem C40_read {t : Text} {a b c d e : Nat} (h : IsName t a b c d e) :
    ∃ n, stringToName t = .ok n ∧
      (n.a : Nat) = a ∧ (n.b : Nat) = b ∧ (n.c : Nat) = c ∧ (n.d : Nat) = d ∧ (n.e : Nat) = e := by
  have fit : ∀ {p v}, IsPart p v → v < 2 ^ 32 := by
    rintro p v ⟨h1, ds, h2, h3, rfl⟩
    have h4 := hexValue_lt (acc := 0) h3
    have h5 : ds.length ≤ 8 := by
      rcases h2 with rfl | rfl
      · omega
      · rw [List.length_cons] at h1; omega
    have h6 : 16 ^ ds.length ≤ 16 ^ 8 := Nat.pow_le_pow_right (by decide) h5
    omega
  obtain ⟨pa, pb, pc, pd, pe, e0, h1, h2, h3, h4, h5⟩ := h
  exact ⟨⟨⟨a, fit h1⟩, ⟨b, fit h2⟩, ⟨c, fit h3⟩, ⟨d, fit h4⟩, ⟨e, fit h5⟩⟩,
    C40_exact.2 ⟨pa, pb, pc, pd, pe, e0, h1, h2, h3, h4, h5⟩, rfl, rfl, rfl, rfl, rfl⟩

/-- A name with digits of both cases and plus signs. -/
example : ∃ n, stringToName
    ("0000000A+00000ff0000002000000F00DeadBeef".toList.map Char.toNat) = .ok n ∧
      (n.a : Nat) = 10 ∧ (n.b : Nat) = 255 ∧ (n.c : Nat) = 32 ∧ (n.d : Nat) = 0xF00 ∧
      (n.e : Nat) = 0xDEADBEEF := by
  refine ⟨⟨10, 255, 32, 0xF00, 0xDEADBEEF⟩, ?_⟩
  decide +kernel

/-- Reading a text as a layer name panics exactly if it has 40 bytes, and after some parts of
the right form (fewer than five) the next 8 bytes end inside a character. Everything else that
is not read is an error. -/
theorem C40_panic_exact {t : Text} :
    stringToName t = .panic ↔ t.len = 40 ∧ ∃ (ps : List Text) (r : Text), t = ps.flatten ++ r ∧ ps.length < 5 ∧
      (∀ p ∈ ps, ∃ v, IsPart p v) ∧ ¬ Cuts r 8 :=
  stringToName_panic_iff

/-- The panic can come at a later part; a bad digit before it prevents it. -/
example : stringToName (List.replicate 15 48 ++ [233] ++ List.replicate 23 48) = .panic ∧
    stringToName ([120] ++ List.replicate 14 48 ++ [233] ++ List.replicate 23 48) = .err := by
  decide +kernel

/-- A parent file is read as a name exactly if it begins with the text of this name. -/
theorem C40_parent_exact {b : Bytes} {n : LayerName} :
    readParentFile b = .ok n ↔ ∃ t rest, b = t ++ rest ∧ IsName t n.a n.b n.c n.d n.e := by
  unfold readParentFile bytesToName
  constructor
  · intro h
    split at h
    · cases h
    · rename_i hl
      rw [if_neg (by rw [List.length_take]; omega)] at h
      have hn := C40_exact.1 h
      have ha := utf8Lossy_of_ascii _ (fun c hc => hexPlus_ascii (hn.char.2 c hc))
      rw [ha] at hn
      exact ⟨b.take 40, b.drop 40, (List.take_append_drop 40 b).symm, hn⟩
  · rintro ⟨t, rest, rfl, hn⟩
    have hl := hn.char.1
    have ht : (t ++ rest).take 40 = t := by rw [← hl]; exact List.take_left
    rw [if_neg (by rw [List.length_append]; omega), ht, if_neg (by omega),
      utf8Lossy_ascii _ (fun c hc => hexPlus_ascii (hn.char.2 c hc))]
    exact C40_exact.2 hn

example : readParentFile
    ("000000010000000200000003000000040000000F and more".toList.map Char.toNat) =
      .ok ⟨1, 2, 3, 4, 15⟩ := by
  decide +kernel

/-- A rollup file is read as a name exactly if it consists of two lines, and the second is the
text of this name. The first line, meant for a version, is not looked at. -/
theorem C40_rollup_exact {b : Bytes} {n : LayerName} :
    readRollupFile b = .ok n ↔ ∃ v t e, utf8Lossy b = v ++ 10 :: (t ++ e) ∧ 10 ∉ v ∧
      (Eol e ∨ e = []) ∧ IsName t n.a n.b n.c n.d n.e := by
  constructor
  · intro h
    unfold readRollupFile at h
    split at h
    · rename_i v t hlines
      have hn := C40_exact.1 h
      have hv : 10 ∉ v := lines_no_feed (t := utf8Lossy b) (by rw [hlines]; simp)
      rcases lines_cons hlines with ⟨e₁, rest, k1, k2, k3⟩ | ⟨_, _, k3⟩
      · have : ∃ e, rest = t ++ e ∧ (Eol e ∨ e = []) := by
          rcases lines_cons k3 with ⟨e₂, rest', m1, m2, m3⟩ | ⟨m1, _, _⟩
          · rw [lines_nil m3, List.append_nil] at m2
            exact ⟨e₂, m2, .inl m1⟩
          · exact ⟨[], by rw [m1, List.append_nil], .inr rfl⟩
        obtain ⟨e, rfl, m⟩ := this
        rcases k1 with rfl | rfl
        · exact ⟨v, t, e, k2, hv, m, hn⟩
        · refine ⟨v ++ [13], t, e, by rw [k2]; simp, ?_, m, hn⟩
          simpa using hv
      · cases k3
    · cases h
  · rintro ⟨v, t, e, hb, hv, m, hn⟩
    have ht : ∀ c ∈ t, c ≠ 10 ∧ c ≠ 13 := by
      intro c hc
      have := hn.char.2 c hc
      unfold Hex LowerHex at this
      omega
    have ne : t ≠ [] := by
      rintro rfl
      have := hn.char.1
      cases this
    obtain ⟨v', hv'⟩ := lines_feed v (t ++ e) hv
    have hlines : (utf8Lossy b).lines = [v', t] := by
      rw [hb, hv']
      rcases m with m | rfl
      · have := lines_eol (t := []) m ht
        rw [List.append_nil, Text.lines] at this
        rw [this]
      · rw [List.append_nil, Text.lines_last t ht ne]
    unfold readRollupFile
    rw [hlines]
    exact C40_exact.2 hn

/-- A rollup file whose first line is no number. -/
example : readRollupFile
    ("x\r\n000000010000000200000003000000040000000F".toList.map Char.toNat) =
      .ok ⟨1, 2, 3, 4, 15⟩ := by
  decide +kernel

/-! ### C36 -/

theorem version_iff {v : Text} {x : Nat} : fromStrRadix 10 (2 ^ 64) v = some x ↔
    IsNumber v x ∧ x < 2 ^ 64 := by
  rw [fromStrRadix_iff (fun _ _ => parseDigits_dec_iff) not_dec_plus]
  constructor
  · rintro ⟨ds, h1, h2, h3, h4, h5⟩; exact ⟨⟨ds, h1, h2, h3, h4⟩, h5⟩
  · rintro ⟨⟨ds, h1, h2, h3, h4⟩, h5⟩; exact ⟨ds, h1, h2, h3, h4, h5⟩

/-- Reading a label file panics exactly if its text has two lines, the first a version, and
reading the second as a layer name panics (`C40_panic_exact` says when). -/
theorem C36_panic_exact {b : Bytes} :
    readLabelFile b = .panic ↔ ∃ v t x, (utf8Lossy b).lines = [v, t] ∧ IsNumber v x ∧
      x < 2 ^ 64 ∧ Text.len t = 40 ∧ ∃ (ps : List Text) (r : Text), t = ps.flatten ++ r ∧
        ps.length < 5 ∧ (∀ p ∈ ps, ∃ v, IsPart p v) ∧ ¬ Cuts r 8 := by
  constructor
  · intro h
    unfold readLabelFile at h
    split at h
    · rename_i v t hlines
      cases hv : fromStrRadix 10 (2 ^ 64) v with
      | none => rw [hv] at h; cases h
      | some x =>
        rw [hv] at h
        dsimp only at h
        obtain ⟨n1, n2⟩ := version_iff.1 hv
        split at h
        · cases h
        · rcases textBind_panic h with h | ⟨n, _, h⟩
          · exact ⟨v, t, x, hlines, n1, n2, C40_panic_exact.1 h⟩
          · cases h
    · cases h
  · rintro ⟨v, t, x, hlines, n1, n2, h⟩
    have ne : t ≠ [] := by
      rintro rfl
      have := h.1
      cases this
    unfold readLabelFile
    rw [hlines]
    dsimp only
    rw [version_iff.2 ⟨n1, n2⟩]
    dsimp only
    rw [if_neg ne, C40_panic_exact.2 h]
    rfl

/-- A file that makes it panic, and the same with a first line that is no version. -/
example : readLabelFile ([48, 10] ++ List.replicate 7 48 ++ [0xC3, 0xA9] ++
      List.replicate 31 48 ++ [10]) = .panic ∧
    readLabelFile ([120, 10] ++ List.replicate 7 48 ++ [0xC3, 0xA9] ++
      List.replicate 31 48 ++ [10]) = .err := by
  decide +kernel

/-- A file is read as a label exactly if it consists of two lines, the first a decimal number
below 2^64, perhaps after a plus sign, the second empty or a layer name, each ended by a line
feed, perhaps after a carriage return, or by the end of the file in the case of a layer name;
the label read has this number as its version and this name as its layer. -/
theorem C36_exact {b : Bytes} {l : LabelData LayerName} :
    readLabelFile b = .ok l ↔
      ∃ v t e₁ e₂, b = v ++ (e₁ ++ (t ++ e₂)) ∧ Eol e₁ ∧ (Eol e₂ ∨ (e₂ = [] ∧ t ≠ [])) ∧
        IsNumber v l.version ∧ l.version < 2 ^ 64 ∧
        ((t = [] ∧ l.layer = none) ∨
          ∃ n, l.layer = some n ∧ IsName t n.a n.b n.c n.d n.e) := by
  have num := @version_iff
  have numChar : ∀ {v : Text} {x : Nat}, IsNumber v x → ∀ c ∈ v, Dec c ∨ c = 43 := by
    rintro v x ⟨ds, h1, _, h3, _⟩ c hc
    rcases h1 with rfl | rfl
    · exact .inl (h3 c hc)
    · rcases List.mem_cons.1 hc with rfl | hc
      · exact .inr rfl
      · exact .inl (h3 c hc)
  have eolAscii : ∀ {e : List Nat}, Eol e → ∀ c ∈ e, c < 0x80 := by
    rintro e (rfl | rfl) c hc
    · simp at hc; omega
    · simp at hc; omega
  have ascii : ∀ {v t e₁ e₂ : List Nat}, Eol e₁ → (Eol e₂ ∨ (e₂ = [] ∧ t ≠ [])) →
      (∀ c ∈ v, Dec c ∨ c = 43) → (∀ c ∈ t, Hex c ∨ c = 43) →
      ∀ c ∈ v ++ (e₁ ++ (t ++ e₂)), c < 0x80 := by
    intro v t e₁ e₂ h1 h2 h3 h4 c hc
    simp only [List.mem_append] at hc
    rcases hc with hc | hc | hc | hc
    · have := h3 c hc
      unfold Dec at this
      omega
    · exact eolAscii h1 c hc
    · exact hexPlus_ascii (h4 c hc)
    · rcases h2 with h2 | ⟨rfl, _⟩
      · exact eolAscii h2 c hc
      · cases hc
  constructor
  · intro h
    unfold readLabelFile at h
    split at h
    · rename_i v t hlines
      cases hv : fromStrRadix 10 (2 ^ 64) v with
      | none => rw [hv] at h; cases h
      | some version =>
        rw [hv] at h
        dsimp only at h
        obtain ⟨n1, n2⟩ := num.1 hv
        have hl : l.version = version ∧ ((t = [] ∧ l.layer = none) ∨
            ∃ n, l.layer = some n ∧ IsName t n.a n.b n.c n.d n.e) := by
          split at h
          · rename_i ht
            injection h with h
            subst h
            exact ⟨rfl, .inl ⟨ht, rfl⟩⟩
          · obtain ⟨n, hn, h⟩ := textBind_ok h
            injection h with h
            subst h
            exact ⟨rfl, .inr ⟨n, rfl, C40_exact.1 hn⟩⟩
        obtain ⟨rfl, hl⟩ := hl
        have ht : ∀ c ∈ t, Hex c ∨ c = 43 := by
          rcases hl with ⟨rfl, _⟩ | ⟨n, _, hn⟩
          · intro c hc; cases hc
          · exact hn.char.2
        rcases lines_cons hlines with ⟨e₁, rest, k1, k2, k3⟩ | ⟨_, _, k3⟩
        · have : ∃ e₂, rest = t ++ e₂ ∧ (Eol e₂ ∨ (e₂ = [] ∧ t ≠ [])) := by
            rcases lines_cons k3 with ⟨e₂, rest', m1, m2, m3⟩ | ⟨m1, m2, _⟩
            · rw [lines_nil m3, List.append_nil] at m2
              exact ⟨e₂, m2, .inl m1⟩
            · exact ⟨[], by rw [m1, List.append_nil], .inr ⟨rfl, m2⟩⟩
          obtain ⟨e₂, rfl, m⟩ := this
          have hb : utf8Lossy b = b :=
            utf8Lossy_of_ascii b (by rw [k2]; exact ascii k1 m (numChar n1) ht)
          exact ⟨v, t, e₁, e₂, hb.symm.trans k2, k1, m, n1, n2, hl⟩
        · cases k3
    · cases h
  · rintro ⟨v, t, e₁, e₂, rfl, k1, m, n1, n2, hl⟩
    have ht : ∀ c ∈ t, Hex c ∨ c = 43 := by
      rcases hl with ⟨rfl, _⟩ | ⟨n, _, hn⟩
      · intro c hc; cases hc
      · exact hn.char.2
    have hv : ∀ c ∈ v, c ≠ 10 ∧ c ≠ 13 := by
      intro c hc
      have := numChar n1 c hc
      unfold Dec at this
      omega
    have ht' : ∀ c ∈ t, c ≠ 10 ∧ c ≠ 13 := by
      intro c hc
      have := ht c hc
      unfold Hex LowerHex at this
      omega
    have hlines : Text.lines (v ++ (e₁ ++ (t ++ e₂))) = [v, t] := by
      rw [lines_eol k1 hv]
      rcases m with m | ⟨rfl, m⟩
      · have := lines_eol (t := []) m ht'
        rw [List.append_nil, Text.lines] at this
        rw [this]
      · rw [List.append_nil, Text.lines_last t ht' m]
    unfold readLabelFile
    rw [utf8Lossy_ascii _ (ascii k1 m (numChar n1) ht), hlines]
    dsimp only
    rw [num.2 ⟨n1, n2⟩]
    dsimp only
    cases l with
    | mk layer version =>
      rcases hl with ⟨rfl, h2⟩ | ⟨n, h1, hn⟩
      · rw [if_pos rfl]
        dsimp only at h2
        rw [h2]
      · have ne : t ≠ [] := by
          rintro rfl
          have := hn.char.1
          cases this
        rw [if_neg ne, C40_exact.2 hn]
        dsimp only at h1
        rw [h1]
        rfl

/-- A label with both kinds of line ends, a plus sign and no layer. -/
example : readLabelFile ("+42\r\n\n".toList.map Char.toNat) = .ok ⟨none, 42⟩ := by decide +kernel

/-- A label whose last line does not end. -/
example : readLabelFile
    ("7\n000000010000000200000003000000040000000F".toList.map Char.toNat) =
      .ok ⟨some ⟨1, 2, 3, 4, 15⟩, 7⟩ := by
  decide +kernel

/-- A version that does not fit is refused. -/
example : readLabelFile ("18446744073709551616\n\n".toList.map Char.toNat) = .err := by
  decide +kernel

end Verif
