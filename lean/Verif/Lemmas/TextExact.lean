import Verif.TextSpec

/-!
Which texts are read as names and labels, exactly.
-/

namespace Verif

open Spec

theorem hex_digit {c : Nat} (h : Hex c) : digitVal 16 c = some (hexDigit c) := by
  unfold Hex LowerHex at h
  unfold digitVal hexDigit
  by_cases h1 : c ≤ 57
  · rw [if_pos (by omega), if_pos h1, Option.bind_some, if_pos (by omega)]
  · rw [if_neg (by omega), if_neg h1]
    by_cases h2 : c ≤ 70
    · rw [if_neg (by omega), if_pos (by omega), if_pos h2, Option.bind_some, if_pos (by omega)]
    · rw [if_pos (by omega), if_neg h2, Option.bind_some, if_pos (by omega)]

theorem hexDigit_lt {c : Nat} (h : Hex c) : hexDigit c < 16 := by
  unfold Hex LowerHex at h
  unfold hexDigit
  split
  · omega
  · split <;> omega

theorem dec_digit {c : Nat} (h : Dec c) : digitVal 10 c = some (c - 48) := by
  unfold Dec at h
  unfold digitVal
  rw [if_pos h, Option.bind_some, if_pos (by omega)]

theorem le_hexValue {acc : Nat} {t : List Nat} : acc ≤ hexValue acc t := by
  induction t generalizing acc with
  | nil => exact Nat.le_refl _
  | cons c t ih =>
    have := ih (acc := 16 * acc + hexDigit c)
    rw [hexValue]
    omega

theorem decValue_nil {acc : Nat} : decValue acc [] = acc := rfl

theorem decValue_cons {acc c : Nat} {t : List Nat} :
    decValue acc (c :: t) = decValue (10 * acc + (c - 48)) t := (rfl)

theorem le_decValue {acc : Nat} {t : List Nat} : acc ≤ decValue acc t := by
  induction t generalizing acc with
  | nil => exact Nat.le_refl _
  | cons c t ih =>
    have := ih (acc := 10 * acc + (c - 48))
    rw [decValue_cons]
    omega

theorem hexValue_lt {acc : Nat} {t : List Nat} (h : ∀ c ∈ t, Hex c) :
    hexValue acc t < (acc + 1) * 16 ^ t.length := by
  induction t generalizing acc with
  | nil => rw [hexValue]; simp
  | cons c t ih =>
    have h1 := ih (acc := 16 * acc + hexDigit c) (fun x hx => h x (List.mem_cons_of_mem _ hx))
    have h2 := hexDigit_lt (h c (List.mem_cons_self ..))
    rw [hexValue, List.length_cons, Nat.pow_succ]
    have h3 : (16 * acc + hexDigit c + 1) * 16 ^ t.length ≤ (16 * (acc + 1)) * 16 ^ t.length :=
      Nat.mul_le_mul_right _ (by omega)
    have h4 : (16 * (acc + 1)) * 16 ^ t.length = (acc + 1) * (16 ^ t.length * 16) := by
      rw [Nat.mul_comm 16 (acc + 1), Nat.mul_assoc, Nat.mul_comm 16]
    omega

theorem parseDigits_hex_iff {max acc v : Nat} {t : Text} :
    parseDigits 16 max acc t = some v ↔
      (∀ c ∈ t, Hex c) ∧ v = hexValue acc t ∧ (t = [] ∨ v < max) := by
  induction t generalizing acc with
  | nil =>
    rw [parseDigits, hexValue]
    constructor
    · intro h; injection h with h; exact ⟨by simp, h.symm, .inl rfl⟩
    · rintro ⟨_, rfl, _⟩; rfl
  | cons c t ih =>
    rw [parseDigits, hexValue]
    by_cases hc : Hex c
    · rw [hex_digit hc]
      dsimp only
      rw [Nat.mul_comm acc 16]
      have hle := le_hexValue (acc := 16 * acc + hexDigit c) (t := t)
      by_cases hm : 16 * acc + hexDigit c < max
      · rw [if_pos hm, ih]
        constructor
        · rintro ⟨h1, rfl, h3⟩
          refine ⟨?_, rfl, .inr ?_⟩
          · intro x hx
            rcases List.mem_cons.1 hx with rfl | hx
            · exact hc
            · exact h1 x hx
          · rcases h3 with rfl | h3
            · exact hm
            · exact h3
        · rintro ⟨h1, rfl, h3⟩
          exact ⟨fun x hx => h1 x (List.mem_cons_of_mem _ hx), rfl, .inr (h3.resolve_left (by simp))⟩
      · rw [if_neg hm]
        constructor
        · intro h; cases h
        · rintro ⟨_, rfl, h3⟩
          have := h3.resolve_left (by simp)
          omega
    · constructor
      · intro h
        cases hd : digitVal 16 c with
        | none => rw [hd] at h; cases h
        | some d => exact absurd (digitVal_hex hd) hc
      · rintro ⟨h1, _⟩
        exact absurd (h1 c (List.mem_cons_self ..)) hc

theorem parseDigits_dec_iff {max acc v : Nat} {t : Text} :
    parseDigits 10 max acc t = some v ↔
      (∀ c ∈ t, Dec c) ∧ v = decValue acc t ∧ (t = [] ∨ v < max) := by
  induction t generalizing acc with
  | nil =>
    rw [parseDigits, decValue_nil]
    constructor
    · intro h; injection h with h; exact ⟨by simp, h.symm, .inl rfl⟩
    · rintro ⟨_, rfl, _⟩; rfl
  | cons c t ih =>
    rw [parseDigits, decValue_cons]
    by_cases hc : Dec c
    · rw [dec_digit hc]
      dsimp only
      rw [Nat.mul_comm acc 10]
      have hle := le_decValue (acc := 10 * acc + (c - 48)) (t := t)
      by_cases hm : 10 * acc + (c - 48) < max
      · rw [if_pos hm, ih]
        constructor
        · rintro ⟨h1, rfl, h3⟩
          refine ⟨?_, rfl, .inr ?_⟩
          · intro x hx
            rcases List.mem_cons.1 hx with rfl | hx
            · exact hc
            · exact h1 x hx
          · rcases h3 with rfl | h3
            · exact hm
            · exact h3
        · rintro ⟨h1, rfl, h3⟩
          exact ⟨fun x hx => h1 x (List.mem_cons_of_mem _ hx), rfl, .inr (h3.resolve_left (by simp))⟩
      · rw [if_neg hm]
        constructor
        · intro h; cases h
        · rintro ⟨_, rfl, h3⟩
          have := h3.resolve_left (by simp)
          omega
    · constructor
      · intro h
        cases hd : digitVal 10 c with
        | none => rw [hd] at h; cases h
        | some d => exact absurd (digitVal_dec hd).1 hc
      · rintro ⟨h1, _⟩
        exact absurd (h1 c (List.mem_cons_self ..)) hc

theorem fromStrRadix_iff {radix max : Nat} {D : Nat → Prop} {val : Nat → List Nat → Nat}
    (hp : ∀ (t : Text) (v : Nat), parseDigits radix max 0 t = some v ↔
      (∀ c ∈ t, D c) ∧ v = val 0 t ∧ (t = [] ∨ v < max)) (h43 : ¬ D 43) {t : Text} {v : Nat} :
    fromStrRadix radix max t = some v ↔
      ∃ ds, (t = ds ∨ t = 43 :: ds) ∧ ds ≠ [] ∧ (∀ c ∈ ds, D c) ∧ v = val 0 ds ∧ v < max := by
  cases t with
  | nil =>
    constructor
    · intro h; cases h
    · rintro ⟨ds, rfl | h, h2, _⟩
      · exact absurd rfl h2
      · cases h
  | cons c s =>
    rw [fromStrRadix]
    by_cases h : c = 43 ∧ s ≠ []
    · rw [if_pos h, hp]
      constructor
      · rintro ⟨h1, h2, h3⟩
        exact ⟨s, .inr (by rw [h.1]), h.2, h1, h2, h3.resolve_left h.2⟩
      · rintro ⟨ds, rfl | h1, h2, h3, h4, h5⟩
        · exact absurd (h.1 ▸ h3 c (List.mem_cons_self ..)) h43
        · injection h1 with _ h1
          subst h1
          exact ⟨h3, h4, .inr h5⟩
    · rw [if_neg h, hp]
      constructor
      · rintro ⟨h1, h2, h3⟩
        exact ⟨c :: s, .inl rfl, by simp, h1, h2, h3.resolve_left (by simp)⟩
      · rintro ⟨ds, rfl | h1, h2, h3, h4, h5⟩
        · exact ⟨h3, h4, .inr h5⟩
        · injection h1 with h1 h6
          exact absurd ⟨h1, by rw [h6]; exact h2⟩ h

theorem not_hex_plus : ¬ Hex 43 := by unfold Hex LowerHex; omega

theorem not_dec_plus : ¬ Dec 43 := by unfold Dec; omega

theorem Spec.IsPart.char {p : List Nat} {v : Nat} (h : IsPart p v) : ∀ c ∈ p, Hex c ∨ c = 43 := by
  obtain ⟨_, ds, h1, h2, _⟩ := h
  intro c hc
  rcases h1 with rfl | rfl
  · exact .inl (h2 c hc)
  · rcases List.mem_cons.1 hc with rfl | hc
    · exact .inr rfl
    · exact .inl (h2 c hc)

theorem hexPlus_ascii {c : Nat} (h : Hex c ∨ c = 43) : c < 0x80 := by
  unfold Hex LowerHex at h; omega

theorem namePart_of {p r : Text} {v : U32} (h : IsPart p v) : namePart (p ++ r) = .ok (v, r) := by
  have hs := Text.split_ascii p r (fun c hc => hexPlus_ascii (h.char c hc))
  obtain ⟨h1, ds, h2, h3, h4⟩ := h
  rw [h1] at hs
  unfold namePart
  rw [hs]
  have hf : fromStrRadix 16 (2 ^ 32) p = some v.val :=
    (fromStrRadix_iff (fun _ _ => parseDigits_hex_iff) not_hex_plus).2
      ⟨ds, h2, (by
        rintro rfl
        rcases h2 with rfl | rfl <;> simp at h1), h3, h4, v.isLt⟩
  simp only [bind, Out.bind, hf]
  rw [dif_pos v.isLt]

theorem of_namePart {t : Text} {r : U32 × Text} (h : namePart t = .ok r) :
    ∃ p, t = p ++ r.2 ∧ IsPart p r.1 := by
  unfold namePart at h
  cases hs : Text.split t 8 with
  | err => rw [hs] at h; cases h
  | panic => rw [hs] at h; cases h
  | ok q =>
    rw [hs] at h
    simp only [bind, Out.bind] at h
    cases hp : fromStrRadix 16 (2 ^ 32) q.1 with
    | none => rw [hp] at h; cases h
    | some v =>
      rw [hp] at h
      dsimp only at h
      split at h
      · injection h with h
        subst h
        obtain ⟨h1, h2⟩ := Text.split_ok hs
        obtain ⟨ds, k1, _, k2, k3, _⟩ :=
          (fromStrRadix_iff (fun _ _ => parseDigits_hex_iff) not_hex_plus).1 hp
        refine ⟨q.1, h1, ?_, ds, k1, k2, k3⟩
        rw [← h2]
        refine (Text.len_ascii _ ?_).symm
        intro c hc
        rcases k1 with e | e
        · rw [e] at hc
          exact hexPlus_ascii (.inl (k2 c hc))
        · rw [e] at hc
          rcases List.mem_cons.1 hc with rfl | hc
          · decide
          · exact hexPlus_ascii (.inl (k2 c hc))
      · cases h

theorem textBind_ok {α β : Type} {x : Out α} {f : α → Out β} {b : β} (h : (x >>= f) = .ok b) :
    ∃ a, x = .ok a ∧ f a = .ok b := by
  cases x with
  | ok a => exact ⟨a, rfl, h⟩
  | err => cases h
  | panic => cases h

theorem Spec.IsName.char {t : List Nat} {a b c d e : Nat} (h : IsName t a b c d e) :
    t.length = 40 ∧ ∀ x ∈ t, Hex x ∨ x = 43 := by
  obtain ⟨pa, pb, pc, pd, pe, rfl, h1, h2, h3, h4, h5⟩ := h
  refine ⟨by simp only [List.length_append, h1.1, h2.1, h3.1, h4.1, h5.1], ?_⟩
  intro x hx
  simp only [List.mem_append] at hx
  rcases hx with hx | hx | hx | hx | hx
  · exact h1.char x hx
  · exact h2.char x hx
  · exact h3.char x hx
  · exact h4.char x hx
  · exact h5.char x hx

theorem stringToName_iff {t : Text} {n : LayerName} :
    stringToName t = .ok n ↔ IsName t n.a n.b n.c n.d n.e := by
  constructor
  · intro h
    obtain ⟨hl, ha⟩ := C40_accepted h
    rw [Text.len_ascii t (fun c hc => hexPlus_ascii (ha c hc))] at hl
    unfold stringToName at h
    split at h
    · cases h
    · obtain ⟨a, a1, h⟩ := textBind_ok h
      obtain ⟨b, b1, h⟩ := textBind_ok h
      obtain ⟨c, c1, h⟩ := textBind_ok h
      obtain ⟨d, d1, h⟩ := textBind_ok h
      obtain ⟨e, e1, h⟩ := textBind_ok h
      injection h with h
      subst h
      obtain ⟨pa, ea, ha⟩ := of_namePart a1
      obtain ⟨pb, eb, hb⟩ := of_namePart b1
      obtain ⟨pc, ec, hc⟩ := of_namePart c1
      obtain ⟨pd, ed, hd⟩ := of_namePart d1
      obtain ⟨pe, ee, he⟩ := of_namePart e1
      rw [ee] at ed
      rw [ed] at ec
      rw [ec] at eb
      rw [eb] at ea
      have e0 : e.2 = [] := by
        rw [ea] at hl
        simp only [List.length_append, ha.1, hb.1, hc.1, hd.1, he.1] at hl
        exact List.eq_nil_of_length_eq_zero (by omega)
      rw [e0, List.append_nil] at ea
      exact ⟨pa, pb, pc, pd, pe, ea, ha, hb, hc, hd, he⟩
  · intro h
    obtain ⟨hl, ha⟩ := h.char
    obtain ⟨pa, pb, pc, pd, pe, rfl, h1, h2, h3, h4, h5⟩ := h
    unfold stringToName
    rw [Text.len_ascii _ (fun c hc => hexPlus_ascii (ha c hc)), if_neg (by rw [hl]; simp)]
    have h6 : namePart pe = .ok (n.e, []) := by
      have := namePart_of (r := []) h5
      rwa [List.append_nil] at this
    simp only [namePart_of h1, namePart_of h2, namePart_of h3, namePart_of h4, h6, bind, Out.bind, pure]

/-! ### Lines -/

theorem lines_nil {s : Text} (h : s.lines = []) : s = [] := by
  induction s using Text.lines.induct with
  | case1 => rfl
  | case2 t _ => rw [Text.lines] at h; cases h
  | case3 t _ => rw [Text.lines] at h; cases h
  | case4 c t h1 h2 _ =>
    rw [Text.lines] at h
    · cases hl : Text.lines t <;> rw [hl] at h <;> cases h
    · exact h1
    · exact h2

theorem lines_cons {s l : Text} {ls : List Text} (h : s.lines = l :: ls) :
    (∃ e rest, Eol e ∧ s = l ++ (e ++ rest) ∧ rest.lines = ls) ∨ (s = l ∧ l ≠ [] ∧ ls = []) := by
  induction s using Text.lines.induct generalizing l ls with
  | case1 => cases h
  | case2 t _ =>
    rw [Text.lines] at h
    injection h with h1 h2
    exact .inl ⟨[13, 10], t, .inr rfl, by rw [← h1]; rfl, h2⟩
  | case3 t _ =>
    rw [Text.lines] at h
    injection h with h1 h2
    exact .inl ⟨[10], t, .inl rfl, by rw [← h1]; rfl, h2⟩
  | case4 c t h1 h2 ih =>
    rw [Text.lines] at h
    · cases hl : Text.lines t with
      | nil =>
        rw [hl, Text.consLine] at h
        injection h with h3 h4
        subst h3
        rw [lines_nil hl]
        exact .inr ⟨rfl, by simp, h4.symm⟩
      | cons k ks =>
        rw [hl, Text.consLine] at h
        injection h with h3 h4
        subst h3
        subst h4
        rcases ih hl with ⟨e, rest, k1, k2, k3⟩ | ⟨k1, k2, k3⟩
        · exact .inl ⟨e, rest, k1, by rw [k2]; rfl, k3⟩
        · exact .inr ⟨by rw [k1], by simp, k3⟩
    · exact h1
    · exact h2

theorem lines_crlf (l t : Text) (h : ∀ c ∈ l, c ≠ 10 ∧ c ≠ 13) :
    Text.lines (l ++ 13 :: 10 :: t) = l :: Text.lines t := by
  induction l with
  | nil => rw [List.nil_append, Text.lines]
  | cons c l ih =>
    have hc := h c (List.mem_cons_self ..)
    rw [List.cons_append, Text.lines]
    · rw [ih (fun x hx => h x (List.mem_cons_of_mem _ hx)), Text.consLine]
    · intro _ hx; exact absurd hx hc.2
    · intro hx; exact absurd hx hc.1

theorem lines_eol {l e t : Text} (he : Eol e) (h : ∀ c ∈ l, c ≠ 10 ∧ c ≠ 13) :
    Text.lines (l ++ (e ++ t)) = l :: Text.lines t := by
  rcases he with rfl | rfl
  · exact Text.lines_line l t h
  · exact lines_crlf l t h

/-- After a line feed a new line begins, whatever is before it. -/
theorem lines_feed (l t : Text) (h : 10 ∉ l) :
    ∃ l', Text.lines (l ++ 10 :: t) = l' :: Text.lines t := by
  induction l using Text.lines.induct with
  | case1 => exact ⟨[], by rw [List.nil_append, Text.lines]⟩
  | case2 u _ => exact absurd (by simp) h
  | case3 u _ => exact absurd (by simp) h
  | case4 c u h1 h2 ih =>
    have hu : 10 ∉ u := fun hm => h (List.mem_cons_of_mem _ hm)
    obtain ⟨l', hl⟩ := ih hu
    by_cases hc : c = 13 ∧ u = []
    · obtain ⟨rfl, rfl⟩ := hc
      exact ⟨[], by rw [List.cons_append, List.nil_append, Text.lines]⟩
    · refine ⟨c :: l', ?_⟩
      rw [List.cons_append, Text.lines]
      · rw [hl, Text.consLine]
      · intro w hw hw'
        cases u with
        | nil => exact hc ⟨hw, rfl⟩
        | cons x u =>
          rw [List.cons_append] at hw'
          injection hw' with hx _
          exact hu (by rw [hx]; simp)
      · exact h2

theorem lines_no_feed {t l : Text} (h : l ∈ t.lines) : 10 ∉ l := by
  induction t using Text.lines.induct generalizing l with
  | case1 => cases h
  | case2 t ih =>
    rw [Text.lines] at h
    rcases List.mem_cons.1 h with rfl | h
    · simp
    · exact ih h
  | case3 t ih =>
    rw [Text.lines] at h
    rcases List.mem_cons.1 h with rfl | h
    · simp
    · exact ih h
  | case4 c t h1 h2 ih =>
    rw [Text.lines] at h
    · have hc : 10 ≠ c := fun e => h2 e.symm
      cases hl : Text.lines t with
      | nil =>
        rw [hl, Text.consLine, List.mem_singleton] at h
        subst h
        simpa using hc
      | cons k ks =>
        rw [hl, Text.consLine] at h
        rcases List.mem_cons.1 h with rfl | h
        · intro hm
          rcases List.mem_cons.1 hm with e | hm
          · exact hc e
          · exact ih (by rw [hl]; exact List.mem_cons_self ..) hm
        · exact ih (by rw [hl]; exact List.mem_cons_of_mem _ h)
    · exact h1
    · exact h2

/-! ### Cutting -/

theorem charLen_one (c : Nat) : 0 < Text.charLen c := by
  unfold Text.charLen
  split
  · decide
  · split
    · decide
    · split <;> decide

theorem split_append (p r : Text) : Text.split (p ++ r) p.len = .ok (p, r) := by
  induction p with
  | nil =>
    cases r with
    | nil => rfl
    | cons c r => rfl
  | cons c p ih =>
    have e : Text.len (c :: p) = Text.charLen c + Text.len p := by
      unfold Text.len
      rw [List.map_cons, List.sum_cons]
    have := charLen_one c
    rw [List.cons_append, Text.split, e, if_neg (by omega), if_pos (by omega),
      Nat.add_sub_cancel_left, ih]
    rfl

theorem split_panic_iff {t : Text} {n : Nat} : t.split n = .panic ↔ ¬ Cuts t n := by
  have noerr : ∀ (t : Text) (n : Nat), t.split n ≠ .err := by
    intro t
    induction t with
    | nil => intro n; rw [Text.split]; split <;> simp
    | cons c t ih =>
      intro n
      rw [Text.split]
      split
      · simp
      · split
        · intro h
          cases hs : Text.split t (n - Text.charLen c) with
          | ok r => rw [hs] at h; cases h
          | err => exact ih _ hs
          | panic => rw [hs] at h; cases h
        · simp
  constructor
  · rintro h ⟨p, r, rfl, rfl⟩
    rw [split_append] at h
    cases h
  · intro h
    cases hs : t.split n with
    | ok r => exact absurd ⟨r.1, r.2, Text.split_ok hs⟩ h
    | err => exact absurd hs (noerr t n)
    | panic => rfl

theorem namePart_panic_iff {t : Text} : namePart t = .panic ↔ ¬ Cuts t 8 := by
  rw [← split_panic_iff]
  unfold namePart
  cases hs : Text.split t 8 with
  | err => simp [bind, Out.bind]
  | panic => simp [bind, Out.bind]
  | ok q =>
    simp only [bind, Out.bind]
    constructor
    · intro h
      split at h
      · cases h
      · split at h <;> cases h
    · intro h; cases h

theorem textBind_panic {α β : Type} {x : Out α} {f : α → Out β} (h : (x >>= f) = .panic) :
    x = .panic ∨ ∃ a, x = .ok a ∧ f a = .panic := by
  cases x with
  | ok a => exact .inr ⟨a, rfl, h⟩
  | err => cases h
  | panic => exact .inl rfl

theorem namePart_isPart {p r : Text} {v : Nat} (h : IsPart p v) :
    ∃ u : U32, namePart (p ++ r) = .ok (u, r) := by
  have hv : v < 2 ^ 32 := by
    obtain ⟨h1, ds, h2, h3, rfl⟩ := h
    have h4 := hexValue_lt (acc := 0) h3
    have h5 : ds.length ≤ 8 := by
      rcases h2 with rfl | rfl
      · omega
      · rw [List.length_cons] at h1; omega
    have h6 : 16 ^ ds.length ≤ 16 ^ 8 := Nat.pow_le_pow_right (by decide) h5
    omega
  exact ⟨⟨v, hv⟩, namePart_of (v := ⟨v, hv⟩) h⟩

theorem stringToName_panic_iff {t : Text} :
    stringToName t = .panic ↔ t.len = 40 ∧ ∃ (ps : List Text) (r : Text), t = ps.flatten ++ r ∧ ps.length < 5 ∧
      (∀ p ∈ ps, ∃ v, IsPart p v) ∧ ¬ Cuts r 8 := by
  constructor
  · intro h
    unfold stringToName at h
    split at h
    · cases h
    · rename_i hl
      refine ⟨Decidable.not_not.1 hl, ?_⟩
      rcases textBind_panic h with h | ⟨a, a1, h⟩
      · exact ⟨[], t, rfl, by decide, by simp, namePart_panic_iff.1 h⟩
      obtain ⟨pa, ea, ha⟩ := of_namePart a1
      rcases textBind_panic h with h | ⟨b, b1, h⟩
      · refine ⟨[pa], a.2, ?_, by simp, ?_, namePart_panic_iff.1 h⟩
        · simp [← ea]
        · intro p hp; simp only [List.mem_singleton] at hp; subst hp; exact ⟨_, ha⟩
      obtain ⟨pb, eb, hb⟩ := of_namePart b1
      rcases textBind_panic h with h | ⟨c, c1, h⟩
      · refine ⟨[pa, pb], b.2, ?_, by simp, ?_, namePart_panic_iff.1 h⟩
        · simp [← ea, ← eb]
        · intro p hp
          simp only [List.mem_cons, List.not_mem_nil, or_false] at hp
          rcases hp with rfl | rfl
          · exact ⟨_, ha⟩
          · exact ⟨_, hb⟩
      obtain ⟨pc, ec, hc⟩ := of_namePart c1
      rcases textBind_panic h with h | ⟨d, d1, h⟩
      · refine ⟨[pa, pb, pc], c.2, ?_, by simp, ?_, namePart_panic_iff.1 h⟩
        · simp [← ea, ← eb, ← ec]
        · intro p hp
          simp only [List.mem_cons, List.not_mem_nil, or_false] at hp
          rcases hp with rfl | rfl | rfl
          · exact ⟨_, ha⟩
          · exact ⟨_, hb⟩
          · exact ⟨_, hc⟩
      obtain ⟨pd, ed, hd⟩ := of_namePart d1
      rcases textBind_panic h with h | ⟨e, e1, h⟩
      · refine ⟨[pa, pb, pc, pd], d.2, ?_, by simp, ?_, namePart_panic_iff.1 h⟩
        · simp [← ea, ← eb, ← ec, ← ed]
        · intro p hp
          simp only [List.mem_cons, List.not_mem_nil, or_false] at hp
          rcases hp with rfl | rfl | rfl | rfl
          · exact ⟨_, ha⟩
          · exact ⟨_, hb⟩
          · exact ⟨_, hc⟩
          · exact ⟨_, hd⟩
      cases h
  · rintro ⟨hl, ps, r, rfl, h5, hp, hr⟩
    have hr := namePart_panic_iff.2 hr
    unfold stringToName
    rw [if_neg (by rw [hl]; simp)]
    match ps, h5, hp with
    | [], _, _ =>
      rw [List.flatten_nil, List.nil_append, hr]
      rfl
    | [a], _, hp =>
      obtain ⟨_, ha⟩ := hp a (by simp)
      obtain ⟨ua, ha⟩ := namePart_isPart (r := r) ha
      rw [List.flatten_cons, List.flatten_nil, List.append_nil, ha]
      simp only [bind, Out.bind, hr]
    | [a, b], _, hp =>
      obtain ⟨_, ha⟩ := hp a (by simp)
      obtain ⟨_, hb⟩ := hp b (by simp)
      obtain ⟨ua, ha⟩ := namePart_isPart (r := b ++ r) ha
      obtain ⟨ub, hb⟩ := namePart_isPart (r := r) hb
      rw [show [a, b].flatten ++ r = a ++ (b ++ r) by simp, ha]
      simp only [bind, Out.bind, hb, hr]
    | [a, b, c], _, hp =>
      obtain ⟨_, ha⟩ := hp a (by simp)
      obtain ⟨_, hb⟩ := hp b (by simp)
      obtain ⟨_, hc⟩ := hp c (by simp)
      obtain ⟨ua, ha⟩ := namePart_isPart (r := b ++ (c ++ r)) ha
      obtain ⟨ub, hb⟩ := namePart_isPart (r := c ++ r) hb
      obtain ⟨uc, hc⟩ := namePart_isPart (r := r) hc
      rw [show [a, b, c].flatten ++ r = a ++ (b ++ (c ++ r)) by simp, ha]
      simp only [bind, Out.bind, hb, hc, hr]
    | [a, b, c, d], _, hp =>
      obtain ⟨_, ha⟩ := hp a (by simp)
      obtain ⟨_, hb⟩ := hp b (by simp)
      obtain ⟨_, hc⟩ := hp c (by simp)
      obtain ⟨_, hd⟩ := hp d (by simp)
      obtain ⟨ua, ha⟩ := namePart_isPart (r := b ++ (c ++ (d ++ r))) ha
      obtain ⟨ub, hb⟩ := namePart_isPart (r := c ++ (d ++ r)) hb
      obtain ⟨uc, hc⟩ := namePart_isPart (r := d ++ r) hc
      obtain ⟨ud, hd⟩ := namePart_isPart (r := r) hd
      rw [show [a, b, c, d].flatten ++ r = a ++ (b ++ (c ++ (d ++ r))) by simp, ha]
      simp only [bind, Out.bind, hb, hc, hd, hr]
    | _ :: _ :: _ :: _ :: _ :: _, h, _ => simp at h; omega

end Verif
