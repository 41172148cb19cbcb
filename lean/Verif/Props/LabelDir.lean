import Verif.Model.LabelDir
import Verif.Lemmas.TextExact
import Verif.Props.LabelFiles

/-!
C39: which labels are found in a directory that has other entries too.
-/

namespace Verif

namespace Spec

/-- The entry is a file with the name of a label and `.label` after it. -/
def IsLabelFile (e : DirEntry) (n : Text) : Prop :=
  e.isFile = true ∧ e.name = some (n ++ ".label".toList.map Char.toNat)

end Spec

open Spec

theorem endsWithLabel_iff {f : Text} :
    endsWithLabel f = true ↔ ∃ n, f = n ++ ".label".toList.map Char.toNat := by
  unfold endsWithLabel
  rw [List.isSuffixOf_iff_suffix]
  constructor
  · rintro ⟨n, rfl⟩; exact ⟨n, rfl⟩
  · rintro ⟨n, rfl⟩; exact ⟨n, rfl⟩

/-- C39: the listing succeeds exactly if all files have names in UTF-8 and all label files can
be read. What else is in the directory makes no difference. -/
theorem C39_listing_succeeds {es : List DirEntry} :
    (∃ r, listLabels es = .ok r) ↔
      ∀ e ∈ es, (e.isFile = true → e.name ≠ none) ∧
        ∀ n, IsLabelFile e n → ∃ l, readLabelFile e.data = .ok l := by
  induction es with
  | nil => exact ⟨(fun _ e he => by cases he), fun _ => ⟨[], rfl⟩⟩
  | cons e es ih =>
    rw [List.forall_mem_cons, ← ih, listLabels]
    by_cases hf : e.isFile = true
    · rw [if_pos hf]
      cases hn : e.name with
      | none =>
        constructor
        · rintro ⟨r, h⟩; cases h
        · rintro ⟨⟨h, _⟩, _⟩; exact absurd rfl (h hf)
      | some f =>
        dsimp only
        by_cases hl : endsWithLabel f = true
        · rw [if_pos hl]
          obtain ⟨n, hfn⟩ := endsWithLabel_iff.1 hl
          constructor
          · rintro ⟨r, h⟩
            obtain ⟨l, h1, h⟩ := textBind_ok h
            obtain ⟨r', h2, _⟩ := textBind_ok h
            exact ⟨⟨fun _ => by simp, fun _ _ => ⟨l, h1⟩⟩, r', h2⟩
          · rintro ⟨⟨_, h⟩, r, hr⟩
            obtain ⟨l, h1⟩ := h n ⟨hf, by rw [hn, hfn]⟩
            exact ⟨(fileStem f, l) :: r, by rw [h1, hr]; rfl⟩
        · rw [if_neg hl]
          constructor
          · rintro h
            refine ⟨⟨fun _ => by simp, fun n hn' => ?_⟩, h⟩
            have := hn'.2
            rw [hn] at this
            injection this with this
            exact absurd (endsWithLabel_iff.2 ⟨n, this⟩) hl
          · rintro ⟨_, h⟩; exact h
    · rw [if_neg hf]
      constructor
      · intro h
        exact ⟨⟨fun h' => absurd h' hf, fun n h' => absurd h'.1 hf⟩, h⟩
      · rintro ⟨_, h⟩; exact h

theorem listLabels_mem {es : List DirEntry} {r : List (Text × LabelData LayerName)}
    (h : listLabels es = .ok r) {m : Text} {l : LabelData LayerName} :
    (m, l) ∈ r ↔ ∃ e ∈ es, ∃ n, IsLabelFile e n ∧ m = fileStem (labelFileName n) ∧
      readLabelFile e.data = .ok l := by
  induction es generalizing r with
  | nil =>
    injection h with h
    subst h
    simp
  | cons e es ih =>
    rw [List.exists_mem_cons_iff]
    rw [listLabels] at h
    by_cases hf : e.isFile = true
    · rw [if_pos hf] at h
      cases hn : e.name with
      | none => rw [hn] at h; cases h
      | some f =>
        rw [hn] at h
        dsimp only at h
        by_cases hl : endsWithLabel f = true
        · rw [if_pos hl] at h
          obtain ⟨n, hfn⟩ := endsWithLabel_iff.1 hl
          obtain ⟨l', h1, h⟩ := textBind_ok h
          obtain ⟨r', h2, h⟩ := textBind_ok h
          injection h with h
          subst h
          rw [List.mem_cons, ih h2]
          refine or_congr ?_ Iff.rfl
          constructor
          · intro h
            injection h with h3 h4
            subst h4
            exact ⟨n, ⟨hf, by rw [hn, hfn]⟩, by rw [h3, hfn]; rfl, h1⟩
          · rintro ⟨n', ⟨_, h3⟩, h4, h5⟩
            rw [hn] at h3
            injection h3 with h3
            rw [h1] at h5
            injection h5 with h5
            rw [h4, h5, h3]
            rfl
        · rw [if_neg hl] at h
          rw [ih h]
          constructor
          · exact .inr
          · rintro (⟨n, ⟨_, h3⟩, _⟩ | h3)
            · rw [hn] at h3
              injection h3 with h3
              exact absurd (endsWithLabel_iff.2 ⟨n, h3⟩) hl
            · exact h3
    · rw [if_neg hf] at h
      rw [ih h]
      constructor
      · exact .inr
      · rintro (⟨n, h3, _⟩ | h3)
        · exact absurd h3.1 hf
        · exact h3

/-- C39: a label is listed, with what its file says, exactly if its file is in the directory.
Missing: the empty name, whose file is listed as a label with the name `.label`. -/
theorem C39_listing_partial {es : List DirEntry} {r : List (Text × LabelData LayerName)}
    (h : listLabels es = .ok r) (h0 : ∀ e ∈ es, ¬ IsLabelFile e []) {n : Text}
    {l : LabelData LayerName} :
    (n, l) ∈ r ↔ ∃ e ∈ es, IsLabelFile e n ∧ readLabelFile e.data = .ok l := by
  rw [listLabels_mem h]
  constructor
  · rintro ⟨e, he, m, h1, h2, h3⟩
    have hm : m ≠ [] := by
      rintro rfl
      exact h0 e he h1
    rw [(C39_file_names m m).2 hm] at h2
    subst h2
    exact ⟨e, he, h1, h3⟩
  · rintro ⟨e, he, h1, h3⟩
    have hm : n ≠ [] := by
      rintro rfl
      exact h0 e he h1
    exact ⟨e, he, n, h1, ((C39_file_names n n).2 hm).symm, h3⟩

/-- C39: opening the cached store succeeds exactly if all label files can be read. Files whose
name is not UTF-8 are passed over. -/
theorem C39_open_succeeds {es : List DirEntry} :
    (∃ r, openLabels es = .ok r) ↔
      ∀ e ∈ es, ∀ n, IsLabelFile e n → ∃ l, readLabelFile e.data = .ok l := by
  induction es with
  | nil => exact ⟨(fun _ e he => by cases he), fun _ => ⟨[], rfl⟩⟩
  | cons e es ih =>
    rw [List.forall_mem_cons, ← ih, openLabels]
    by_cases hf : e.isFile = true
    · rw [if_pos hf]
      cases hn : e.name with
      | none =>
        dsimp only
        constructor
        · intro h
          refine ⟨fun n hn' => ?_, h⟩
          have := hn'.2
          rw [hn] at this
          cases this
        · rintro ⟨_, h⟩; exact h
      | some f =>
        dsimp only
        by_cases hl : endsWithLabel f = true
        · rw [if_pos hl]
          obtain ⟨n, hfn⟩ := endsWithLabel_iff.1 hl
          constructor
          · rintro ⟨r, h⟩
            obtain ⟨l, h1, h⟩ := textBind_ok h
            obtain ⟨r', h2, _⟩ := textBind_ok h
            exact ⟨fun _ _ => ⟨l, h1⟩, r', h2⟩
          · rintro ⟨h, r, hr⟩
            obtain ⟨l, h1⟩ := h n ⟨hf, by rw [hn, hfn]⟩
            exact ⟨(f.take (f.length - 6), fileStem f, l) :: r, by rw [h1, hr]; rfl⟩
        · rw [if_neg hl]
          constructor
          · rintro h
            refine ⟨fun n hn' => ?_, h⟩
            have := hn'.2
            rw [hn] at this
            injection this with this
            exact absurd (endsWithLabel_iff.2 ⟨n, this⟩) hl
          · rintro ⟨_, h⟩; exact h
    · rw [if_neg hf]
      constructor
      · intro h
        exact ⟨fun n h' => absurd h'.1 hf, h⟩
      · rintro ⟨_, h⟩; exact h

theorem take_label (n : Text) (s : Text) (hs : s.length = 6) :
    (n ++ s).take ((n ++ s).length - 6) = n := by
  rw [List.length_append, hs, Nat.add_sub_cancel]
  exact List.take_left

theorem stem_label (k : Text) : fileStem (k ++ ".label".toList.map Char.toNat) =
    if k = [] then ".label".toList.map Char.toNat else k := by
  by_cases hk : k = []
  · subst hk; rw [if_pos rfl]; decide
  · rw [if_neg hk]; exact (C39_file_names k k).2 hk

/-- C39: the cached store starts with exactly the labels whose files are in the directory, each
under its own name, the empty one included. The label that is handed out has this name if it
is not empty. -/
theorem C39_open {es : List DirEntry} {r : List (Text × Text × LabelData LayerName)}
    (h : openLabels es = .ok r) {n m : Text} {l : LabelData LayerName} :
    (n, m, l) ∈ r ↔ (∃ e ∈ es, IsLabelFile e n ∧ readLabelFile e.data = .ok l) ∧
      m = if n = [] then ".label".toList.map Char.toNat else n := by
  induction es generalizing r with
  | nil =>
    injection h with h
    subst h
    simp
  | cons e es ih =>
    rw [List.exists_mem_cons_iff]
    rw [openLabels] at h
    by_cases hf : e.isFile = true
    · rw [if_pos hf] at h
      cases hn : e.name with
      | none =>
        rw [hn] at h
        rw [ih h]
        refine and_congr ⟨.inr, ?_⟩ Iff.rfl
        rintro (⟨⟨_, h3⟩, _⟩ | h3)
        · rw [hn] at h3; cases h3
        · exact h3
      | some f =>
        rw [hn] at h
        dsimp only at h
        by_cases hl : endsWithLabel f = true
        · rw [if_pos hl] at h
          obtain ⟨k, hfk⟩ := endsWithLabel_iff.1 hl
          obtain ⟨l', h1, h⟩ := textBind_ok h
          obtain ⟨r', h2, h⟩ := textBind_ok h
          injection h with h
          subst h
          have ht : f.take (f.length - 6) = k := by rw [hfk]; exact take_label k _ rfl
          rw [ht, List.mem_cons, ih h2, or_and_right]
          refine or_congr ?_ Iff.rfl
          constructor
          · intro h
            injection h with h3 h4
            injection h4 with h4 h5
            subst h3
            subst h5
            exact ⟨⟨⟨hf, by rw [hn, hfk]⟩, h1⟩, by rw [h4, hfk, stem_label]⟩
          · rintro ⟨⟨⟨_, h3⟩, h5⟩, h4⟩
            rw [hn] at h3
            injection h3 with h3
            rw [h1] at h5
            injection h5 with h5
            have hk : k = n := List.append_cancel_right (hfk.symm.trans h3)
            rw [h4, h5, hfk, stem_label, hk]
        · rw [if_neg hl] at h
          rw [ih h]
          refine and_congr ⟨.inr, ?_⟩ Iff.rfl
          rintro (⟨⟨_, h3⟩, _⟩ | h3)
          · rw [hn] at h3
            injection h3 with h3
            exact absurd (endsWithLabel_iff.2 ⟨n, h3⟩) hl
          · exact h3
    · rw [if_neg hf] at h
      rw [ih h]
      refine and_congr ⟨.inr, ?_⟩ Iff.rfl
      rintro (⟨h3, _⟩ | h3)
      · exact absurd h3.1 hf
      · exact h3

/-- A directory with a label, a directory of layers, an archive and a directory that has the
name of a label file. -/
def sampleDir : List DirEntry :=
  [⟨some ("a.b.label".toList.map Char.toNat), true, labelFile ⟨some sampleName, 3⟩⟩,
   ⟨some ("0f1".toList.map Char.toNat), false, []⟩,
   ⟨some ("x.larch".toList.map Char.toNat), true, [1, 2]⟩,
   ⟨some ("c.label".toList.map Char.toNat), false, []⟩]

example : listLabels sampleDir = .ok [([97, 46, 98], ⟨some sampleName, 3⟩)] ∧
    openLabels sampleDir = .ok [([97, 46, 98], [97, 46, 98], ⟨some sampleName, 3⟩)] ∧
    ∀ e ∈ sampleDir, e.name ≠ some (".label".toList.map Char.toNat) := by
  decide +kernel

/-- A file whose name is not UTF-8 makes every listing of the directory store fail, although it
is no label. The cached store opens. -/
theorem C39_foreign_file {es : List DirEntry} {b : Bytes} (h : ⟨none, true, b⟩ ∈ es) :
    ∀ r, listLabels es ≠ .ok r := by
  intro r hr
  exact ((C39_listing_succeeds.1 ⟨r, hr⟩) _ h).1 rfl rfl

example : openLabels (⟨none, true, [1]⟩ :: sampleDir) = openLabels sampleDir := rfl

end Verif
