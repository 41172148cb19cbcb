import Verif.Lemmas.Pack

/-!
The parents in a pack.
-/

namespace Verif

/-! ### Texts that are names are ASCII -/

theorem utf8Start_spec (b : Nat) : (b < 0x80 ∧ utf8Start b = ([b], none)) ∨
    (utf8Start b).1 = [0xFFFD] ∨
    ∃ need lo hi acc, utf8Start b = ([], some (need, lo, hi, acc)) ∧ 1 ≤ need ∧ 0x80 ≤ lo ∧
      (if need = 1 then 2 ≤ acc else 2 ≤ acc * 64 + (lo - 0x80)) := by
  unfold utf8Start
  repeat' split
  · rename_i h; exact Or.inl ⟨h, rfl⟩
  all_goals first
    | exact Or.inr (Or.inr ⟨_, _, _, _, rfl, by omega, by omega, by simp; try omega⟩)
    | exact Or.inr (Or.inl rfl)

theorem utf8Go_some (b : Bytes) : ∀ need lo hi acc, 1 ≤ need → 0x80 ≤ lo →
    (if need = 1 then 2 ≤ acc else 2 ≤ acc * 64 + (lo - 0x80)) →
    ∃ c ∈ utf8Go (some (need, lo, hi, acc)) b, 0x80 ≤ c := by
  induction b with
  | nil => intro need lo hi acc _ _ _; exact ⟨0xFFFD, List.mem_singleton.mpr rfl, by decide⟩
  | cons b t ih =>
    intro need lo hi acc h1 h2 h3
    rw [utf8Go]
    split
    · rename_i hb
      by_cases hn : need ≤ 1
      · rw [if_pos hn]
        have : need = 1 := by omega
        rw [if_pos this] at h3
        exact ⟨_, List.mem_cons_self, by omega⟩
      · rw [if_neg hn]
        rw [if_neg (by omega)] at h3
        refine ih _ _ _ _ (by omega) (by omega) ?_
        split <;> omega
    · exact ⟨0xFFFD, List.mem_cons_self, by decide⟩

theorem utf8Lossy_of_ascii (b : Bytes) (h : ∀ c ∈ utf8Lossy b, c < 0x80) : utf8Lossy b = b := by
  unfold utf8Lossy at *
  induction b with
  | nil => rfl
  | cons x t ih =>
    rw [utf8Go] at h ⊢
    rcases utf8Start_spec x with ⟨hx, e⟩ | e | ⟨need, lo, hi, acc, e, h1, h2, h3⟩
    · rw [e] at h ⊢
      dsimp only at h ⊢
      rw [ih (fun c hc => h c (List.mem_append_right _ hc))]
      rfl
    · exact absurd (h 0xFFFD (List.mem_append_left _ (by rw [e]; exact List.mem_singleton.mpr rfl)))
        (by decide)
    · rw [e] at h
      obtain ⟨c, hc, hc'⟩ := utf8Go_some t need lo hi acc h1 h2 h3
      have := h c (List.mem_append_right _ hc)
      omega

theorem digitVal_lt {radix c d : Nat} (h : digitVal radix c = some d) : c < 0x80 := by
  unfold digitVal at h
  dsimp only at h
  split at h
  · omega
  · split at h
    · omega
    · split at h
      · omega
      · cases h

theorem parseDigits_lt {radix max : Nat} (t : Text) : ∀ {acc v}, parseDigits radix max acc t = some v →
    ∀ c ∈ t, c < 0x80 := by
  induction t with
  | nil => intro _ _ _ c hc; cases hc
  | cons x t ih =>
    intro acc v h
    rw [parseDigits] at h
    cases hd : digitVal radix x with
    | none => rw [hd] at h; cases h
    | some d =>
      rw [hd] at h
      dsimp only at h
      split at h
      · intro c hc
        rcases List.mem_cons.mp hc with rfl | hc
        · exact digitVal_lt hd
        · exact ih h c hc
      · cases h

theorem fromStrRadix_lt {radix max : Nat} {t : Text} {v : Nat}
    (h : fromStrRadix radix max t = some v) : ∀ c ∈ t, c < 0x80 := by
  cases t with
  | nil => cases h
  | cons x t =>
    rw [fromStrRadix] at h
    split at h
    · rename_i hx
      intro c hc
      rcases List.mem_cons.mp hc with rfl | hc
      · omega
      · exact parseDigits_lt t h c hc
    · exact parseDigits_lt _ h

theorem Text.split_eq (t : Text) : ∀ {n r}, Text.split t n = .ok r → t = r.1 ++ r.2 := by
  induction t with
  | nil =>
    intro n r h
    rw [Text.split] at h
    split at h
    · cases h; rfl
    · cases h
  | cons c t ih =>
    intro n r h
    rw [Text.split] at h
    split at h
    · cases h; rfl
    · split at h
      · cases hs : Text.split t (n - Text.charLen c) with
        | ok q =>
          rw [hs] at h
          cases h
          rw [ih hs]; rfl
        | err => rw [hs] at h; cases h
        | panic => rw [hs] at h; cases h
      · cases h

theorem namePart_lt {t : Text} {r : U32 × Text} (h : namePart t = .ok r) :
    ∃ p, t = p ++ r.2 ∧ ∀ c ∈ p, c < 0x80 := by
  unfold namePart at h
  cases hs : Text.split t 8 with
  | ok q =>
    rw [hs] at h
    replace h : (match fromStrRadix 16 (2 ^ 32) q.1 with
      | none => Out.err
      | some v => if h : v < 2 ^ 32 then .ok ((⟨v, h⟩ : U32), q.2) else .err) = .ok r := h
    cases hf : fromStrRadix 16 (2 ^ 32) q.1 with
    | none => rw [hf] at h; cases h
    | some v =>
      rw [hf] at h
      dsimp only at h
      split at h
      · cases h
        exact ⟨q.1, Text.split_eq t hs, fromStrRadix_lt hf⟩
      · cases h
  | err => rw [hs] at h; cases h
  | panic => rw [hs] at h; cases h

theorem Out.of_bind_ok {α β : Type} {x : Out α} {f : α → Out β} {b : β} (h : x.bind f = .ok b) :
    ∃ a, x = .ok a ∧ f a = .ok b := by
  cases x with
  | ok a => exact ⟨a, rfl, h⟩
  | err => cases h
  | panic => cases h

theorem charLen_pos (c : Nat) : 1 ≤ Text.charLen c := by
  unfold Text.charLen; repeat' split
  all_goals omega

theorem Text.split_len (t : Text) : ∀ {n r}, Text.split t n = .ok r → t.len = n + r.2.len := by
  induction t with
  | nil =>
    intro n r h
    rw [Text.split] at h
    split at h
    · rename_i hn
      cases h; simp [hn]
    · cases h
  | cons c t ih =>
    intro n r h
    rw [Text.split] at h
    split at h
    · rename_i hn
      cases h; simp [hn]
    · split at h
      · cases hs : Text.split t (n - Text.charLen c) with
        | ok q =>
          rw [hs] at h
          cases h
          have := ih hs
          unfold Text.len at this ⊢
          rw [List.map_cons, List.sum_cons, this]
          dsimp only
          omega
        | err => rw [hs] at h; cases h
        | panic => rw [hs] at h; cases h
      · cases h

theorem namePart_len {t : Text} {r : U32 × Text} (h : namePart t = .ok r) :
    t.len = 8 + r.2.len := by
  unfold namePart at h
  obtain ⟨q, h1, h2⟩ := Out.of_bind_ok h
  rw [Text.split_len t h1]
  split at h2
  · cases h2
  · split at h2
    · cases h2; rfl
    · cases h2

theorem len_zero {t : Text} (h : t.len = 0) : t = [] := by
  cases t with
  | nil => rfl
  | cons c t =>
    unfold Text.len at h
    rw [List.map_cons, List.sum_cons] at h
    have := charLen_pos c
    omega

theorem stringToName_lt {t : Text} {n : LayerName} (h : stringToName t = .ok n) :
    ∀ c ∈ t, c < 0x80 := by
  unfold stringToName at h
  split at h
  · cases h
  · rename_i hl
    obtain ⟨a, ha, h⟩ := Out.of_bind_ok h
    obtain ⟨b, hb, h⟩ := Out.of_bind_ok h
    obtain ⟨c, hc, h⟩ := Out.of_bind_ok h
    obtain ⟨d, hd, h⟩ := Out.of_bind_ok h
    obtain ⟨e, he, h⟩ := Out.of_bind_ok h
    have l1 := namePart_len ha
    have l2 := namePart_len hb
    have l3 := namePart_len hc
    have l4 := namePart_len hd
    have l5 := namePart_len he
    have l6 : e.2 = [] := len_zero (by omega)
    obtain ⟨p1, e1, g1⟩ := namePart_lt ha
    obtain ⟨p2, e2, g2⟩ := namePart_lt hb
    obtain ⟨p3, e3, g3⟩ := namePart_lt hc
    obtain ⟨p4, e4, g4⟩ := namePart_lt hd
    obtain ⟨p5, e5, g5⟩ := namePart_lt he
    intro x hx
    rw [e1, e2, e3, e4, e5, l6] at hx
    simp only [List.mem_append, List.not_mem_nil, or_false] at hx
    rcases hx with hx | hx | hx | hx | hx
    · exact g1 x hx
    · exact g2 x hx
    · exact g3 x hx
    · exact g4 x hx
    · exact g5 x hx

namespace Pack

open PackSpec

theorem utf8Char_ascii (b : Bytes) (h : ∀ c ∈ b, c < 0x80) : b.flatMap utf8Char = b := by
  induction b with
  | nil => rfl
  | cons c t ih =>
    rw [List.flatMap_cons, ih (fun c hc => h c (List.mem_cons_of_mem _ hc))]
    unfold utf8Char
    rw [if_pos (h c List.mem_cons_self)]
    rfl

/-- The contents of a parent file that can be read in a store can be read in a pack. -/
theorem parentId_of {b : Bytes} {p : LayerName} (h : readParentFile b = .ok p) :
    parentId b = .ok p := by
  unfold readParentFile bytesToName at h
  unfold parentId
  split at h
  · cases h
  · rename_i hl
    rw [if_neg hl]
    rw [List.length_take, if_neg (by omega)] at h
    have ha := stringToName_lt h
    have e := utf8Lossy_of_ascii _ ha
    unfold fromUtf8
    rw [e] at ha ⊢
    rw [utf8Char_ascii _ ha, if_pos rfl]
    rw [e] at h
    exact h

theorem of_parentId {b : Bytes} {p : LayerName} (h : parentId b = .ok p) :
    readParentFile b = .ok p := by
  unfold parentId at h
  unfold readParentFile bytesToName
  split at h
  · cases h
  · rename_i hl
    rw [if_neg hl, List.length_take, if_neg (by omega)]
    obtain ⟨t, h1, h2⟩ := Out.of_bind_ok h
    unfold fromUtf8 at h1
    split at h1
    · cases h1; exact h2
    · cases h1

/-! ### The map of parents -/

theorem fileName_some {path : List String} {f : String} (h : fileName path = some f) :
    path.getLast? = some f ∧ f ≠ ".." ∧ f ≠ "." ∧ f ≠ "/" := by
  unfold fileName at h
  split at h
  · cases h
  · rename_i g hg
    split at h
    · cases h
    · rename_i hn
      cases h
      refine ⟨hg, fun e => hn (Or.inl e), fun e => hn (Or.inr (Or.inl e)),
        fun e => hn (Or.inr (Or.inr e))⟩

/-- What one entry does. -/
theorem parentsEntry_ok {m m' : Parents} {e : PackEntry} (h : parentsEntry m e = .ok m') :
    ∃ n, Belongs e n ∧ ((IsParent e ∧ ∃ p, Records e n p ∧ m' = m.insert n (some p)) ∨
      (¬ IsParent e ∧ m' = m.orInsertNone n)) := by
  unfold parentsEntry at h
  obtain ⟨c, h1, h⟩ := Out.of_bind_ok h
  obtain ⟨n, h2, h⟩ := Out.of_bind_ok h
  obtain ⟨f, h3, h⟩ := Out.of_bind_ok h
  have hb : Belongs e n := ⟨c, by
    unfold first at h1
    cases hh : e.path.head? with
    | none => rw [hh] at h1; cases h1
    | some x => rw [hh] at h1; cases h1; rfl, h2⟩
  have hl : e.path.getLast? = some f := by
    cases hh : fileName e.path with
    | none => rw [hh] at h3; cases h3
    | some x => rw [hh] at h3; cases h3; exact (fileName_some hh).1
  refine ⟨n, hb, ?_⟩
  split at h
  · rename_i hf
    obtain ⟨p, h4, h5⟩ := Out.of_bind_ok h
    cases h5
    exact Or.inl ⟨by unfold IsParent; rw [hl, hf], p,
      ⟨hb, by unfold IsParent; rw [hl, hf], of_parentId h4⟩, rfl⟩
  · rename_i hf
    cases h
    refine Or.inr ⟨fun hp => ?_, rfl⟩
    unfold IsParent at hp
    rw [hl] at hp
    exact hf (by cases hp; rfl)

theorem parentsEntry_some {m : Parents} {e : PackEntry} (h : Readable e) :
    ∃ m', parentsEntry m e = .ok m' := by
  obtain ⟨n, ⟨c, hc, hn⟩, ⟨f, hf, n1, n2, n3⟩, hp⟩ := h
  unfold parentsEntry first
  rw [hc]
  show ∃ m', (stringToName (textOf c)).bind _ = .ok m'
  rw [hn]
  have : fileName e.path = some f := by
    unfold fileName
    rw [hf]
    exact if_neg (by simp [n1, n2, n3])
  show ∃ m', (Out.ofOption (fileName e.path)).bind _ = .ok m'
  rw [this]
  show ∃ m', (if f = "parent.hex" then (parentId e.content).bind (fun p => Out.ok (m.insert n (some p)))
    else Out.ok (m.orInsertNone n)) = Out.ok m'
  by_cases hh : f = "parent.hex"
  · rw [if_pos hh]
    obtain ⟨p, -, -, h1⟩ := hp (by unfold IsParent; rw [hf, hh])
    rw [parentId_of h1]
    exact ⟨_, rfl⟩
  · rw [if_neg hh]
    exact ⟨_, rfl⟩

theorem parentsEntry_readable {m m' : Parents} {e : PackEntry} (h : parentsEntry m e = .ok m') :
    Readable e := by
  obtain ⟨n, hb, hc⟩ := parentsEntry_ok h
  refine ⟨n, hb, ?_, fun hp => ?_⟩
  · unfold parentsEntry at h
    obtain ⟨c, h1, h⟩ := Out.of_bind_ok h
    obtain ⟨n, h2, h⟩ := Out.of_bind_ok h
    obtain ⟨f, h3, h⟩ := Out.of_bind_ok h
    cases hh : fileName e.path with
    | none => rw [hh] at h3; cases h3
    | some x => exact ⟨x, fileName_some hh⟩
  · rcases hc with ⟨-, p, h1, -⟩ | ⟨h1, -⟩
    · exact ⟨p, h1⟩
    · exact absurd hp h1

theorem Parents.mem_insert {m : Parents} {n k : LayerName} {p q : Option LayerName} :
    (k, q) ∈ m.insert n p ↔ (k = n ∧ q = p) ∨ (k ≠ n ∧ (k, q) ∈ m) := by
  unfold Parents.insert
  rw [List.mem_cons, List.mem_filter]
  constructor
  · rintro (h | ⟨h1, h2⟩)
    · cases h; exact Or.inl ⟨rfl, rfl⟩
    · exact Or.inr ⟨by simpa using h2, h1⟩
  · rintro (⟨rfl, rfl⟩ | ⟨h1, h2⟩)
    · exact Or.inl rfl
    · exact Or.inr ⟨h2, by simpa using h1⟩

theorem Parents.mem_orInsert {m : Parents} {n k : LayerName} {q : Option LayerName} :
    (k, q) ∈ m.orInsertNone n ↔ (k, q) ∈ m ∨ (k = n ∧ q = none ∧ ∀ r, (n, r) ∉ m) := by
  unfold Parents.orInsertNone
  cases h : m.lookup n with
  | some r =>
    have := lookup_mem h
    exact ⟨Or.inl, fun h => h.elim id (fun h => absurd this (h.2.2 r))⟩
  | none =>
    have := lookup_none.mp h
    dsimp only
    rw [List.mem_cons]
    constructor
    · rintro (h | h)
      · cases h; exact Or.inr ⟨rfl, rfl, this⟩
      · exact Or.inl h
    · rintro (h | ⟨rfl, rfl, -⟩)
      · exact Or.inr h
      · exact Or.inl rfl

/-- What the map is after some entries. -/
structure Good (m : Parents) (pack : List PackEntry) : Prop where
  nodup : (m.map (·.1)).Nodup
  key : ∀ n q, (n, q) ∈ m → ∃ e ∈ pack, Belongs e n
  all : ∀ n, (∃ e ∈ pack, Belongs e n) → ∃ q, (n, q) ∈ m
  parent : ∀ n p, (n, some p) ∈ m → ∃ e ∈ pack, Records e n p
  none_of : ∀ n, (n, none) ∈ m → ∀ e ∈ pack, Belongs e n → ¬ IsParent e

theorem belongs_inj {e : PackEntry} {n m : LayerName} (h : Belongs e n) (h' : Belongs e m) :
    n = m := by
  obtain ⟨c, h1, h2⟩ := h
  obtain ⟨c', h3, h4⟩ := h'
  rw [h1] at h3
  cases h3
  rw [h2] at h4
  cases h4
  rfl

theorem Good.step {m m' : Parents} {pack : List PackEntry} {e : PackEntry} (h : Good m pack)
    (he : parentsEntry m e = .ok m') : Good m' (pack ++ [e]) := by
  have old : ∀ {x}, x ∈ pack → x ∈ pack ++ [e] := fun hx => List.mem_append_left _ hx
  have new : e ∈ pack ++ [e] := List.mem_append_right _ (List.mem_singleton.mpr rfl)
  have split : ∀ {x}, x ∈ pack ++ [e] → x ∈ pack ∨ x = e := fun hx =>
    (List.mem_append.mp hx).imp id List.mem_singleton.mp
  obtain ⟨n, hb, ⟨hp, p, hr, rfl⟩ | ⟨hp, rfl⟩⟩ := parentsEntry_ok he
  · refine ⟨?_, fun k q hk => ?_, fun k hk => ?_, fun k q hk => ?_, fun k hk x hx hxb => ?_⟩
    · unfold Parents.insert
      rw [List.map_cons, List.nodup_cons]
      refine ⟨fun hm => ?_, List.Pairwise.sublist (List.Sublist.map _ List.filter_sublist) h.nodup⟩
      obtain ⟨⟨k, q⟩, h1, h2⟩ := List.mem_map.mp hm
      exact absurd h2 (by simpa using (List.mem_filter.mp h1).2)
    · rcases Parents.mem_insert.mp hk with ⟨rfl, -⟩ | ⟨-, hk⟩
      · exact ⟨e, new, hb⟩
      · obtain ⟨x, h1, h2⟩ := h.key k q hk
        exact ⟨x, old h1, h2⟩
    · by_cases hkn : k = n
      · exact ⟨some p, Parents.mem_insert.mpr (Or.inl ⟨hkn, rfl⟩)⟩
      · obtain ⟨x, hx, hxb⟩ := hk
        rcases split hx with hx | rfl
        · obtain ⟨q, hq⟩ := h.all k ⟨x, hx, hxb⟩
          exact ⟨q, Parents.mem_insert.mpr (Or.inr ⟨hkn, hq⟩)⟩
        · exact absurd (belongs_inj hxb hb) hkn
    · rcases Parents.mem_insert.mp hk with ⟨rfl, h2⟩ | ⟨-, hk⟩
      · cases h2; exact ⟨e, new, hr⟩
      · obtain ⟨x, h1, h2⟩ := h.parent k q hk
        exact ⟨x, old h1, h2⟩
    · rcases Parents.mem_insert.mp hk with ⟨-, h2⟩ | ⟨hkn, hk⟩
      · cases h2
      · rcases split hx with hx | rfl
        · exact h.none_of k hk x hx hxb
        · exact absurd (belongs_inj hxb hb) hkn
  · refine ⟨?_, fun k q hk => ?_, fun k hk => ?_, fun k q hk => ?_, fun k hk x hx hxb => ?_⟩
    · unfold Parents.orInsertNone
      cases hl : m.lookup n with
      | some r => exact h.nodup
      | none =>
        dsimp only
        rw [List.map_cons, List.nodup_cons]
        refine ⟨fun hm => ?_, h.nodup⟩
        obtain ⟨⟨k, q⟩, h1, h2⟩ := List.mem_map.mp hm
        cases h2
        exact lookup_none.mp hl q h1
    · rcases Parents.mem_orInsert.mp hk with hk | ⟨rfl, -, -⟩
      · obtain ⟨x, h1, h2⟩ := h.key k q hk
        exact ⟨x, old h1, h2⟩
      · exact ⟨e, new, hb⟩
    · obtain ⟨x, hx, hxb⟩ := hk
      by_cases hex : ∃ q, (k, q) ∈ m
      · obtain ⟨q, hq⟩ := hex
        exact ⟨q, Parents.mem_orInsert.mpr (Or.inl hq)⟩
      · rcases split hx with hx | rfl
        · exact absurd (h.all k ⟨x, hx, hxb⟩) hex
        · cases belongs_inj hxb hb
          exact ⟨none, Parents.mem_orInsert.mpr (Or.inr ⟨rfl, rfl, fun r hr => hex ⟨r, hr⟩⟩)⟩
    · rcases Parents.mem_orInsert.mp hk with hk | ⟨-, h2, -⟩
      · obtain ⟨x, h1, h2⟩ := h.parent k q hk
        exact ⟨x, old h1, h2⟩
      · cases h2
    · rcases split hx with hx | rfl
      · rcases Parents.mem_orInsert.mp hk with hk | ⟨rfl, -, h3⟩
        · exact h.none_of k hk x hx hxb
        · obtain ⟨q, hq⟩ := h.all k ⟨x, hx, hxb⟩
          exact absurd hq (h3 q)
      · exact hp

theorem good_all (rest : List PackEntry) : ∀ {m m' : Parents} {pack : List PackEntry}, Good m pack →
    Out.forEach parentsEntry m rest = .ok m' → Good m' (pack ++ rest) := by
  induction rest with
  | nil => intro m m' pack h hm; cases hm; rw [List.append_nil]; exact h
  | cons e rest ih =>
    intro m m' pack h hm
    rw [Out.forEach_cons] at hm
    obtain ⟨m1, h1, h2⟩ := Out.of_bind_ok hm
    have := ih (h.step h1) h2
    rw [List.append_assoc] at this
    exact this

theorem packLayerParents_good {pack : List PackEntry} {m : Parents}
    (h : packLayerParents pack = .ok m) : Good m pack := by
  have := good_all pack (m := []) (pack := []) ⟨List.nodup_nil, fun _ _ h => (by cases h),
    fun _ ⟨_, h, _⟩ => (by cases h), fun _ _ h => (by cases h), fun _ h => (by cases h)⟩ h
  simpa using this

theorem packLayerParents_some {pack : List PackEntry} :
    (∃ m, packLayerParents pack = .ok m) ↔ ∀ e ∈ pack, Readable e := by
  have : ∀ m : Parents, (∃ m', Out.forEach parentsEntry m pack = .ok m') ↔ ∀ e ∈ pack, Readable e := by
    induction pack with
    | nil => intro m; exact ⟨fun _ _ h => (by cases h), fun _ => ⟨m, rfl⟩⟩
    | cons e pack ih =>
      intro m
      rw [Out.forEach_cons]
      constructor
      · rintro ⟨m', h⟩ x hx
        obtain ⟨m1, h1, h2⟩ := Out.of_bind_ok h
        rcases List.mem_cons.mp hx with rfl | hx
        · exact parentsEntry_readable h1
        · exact (ih m1).mp ⟨m', h2⟩ x hx
      · intro h
        obtain ⟨m1, h1⟩ := parentsEntry_some (m := m) (h e List.mem_cons_self)
        obtain ⟨m', h2⟩ := (ih m1).mpr (fun x hx => h x (List.mem_cons_of_mem _ hx))
        exact ⟨m', by rw [h1]; exact h2⟩
  exact this []

end Pack

end Verif
