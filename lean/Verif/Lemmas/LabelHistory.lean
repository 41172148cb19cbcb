import Verif.Lemmas.Named
import Verif.Lemmas.LabelDir
import Verif.Lemmas.LockedLin
import Verif.Lemmas.LabelFile

/-!
Facts about histories of label stores that the properties are put together from.
-/

namespace Verif

open Spec

set_option linter.unusedSectionVars false

variable {L N : Type} [DecidableEq L] {same : LabelData N → LabelData N → Bool}
  {h : LabelHistory L N} {G : List (LabelEvent L N)}

/-! ### Which histories are linearized -/

theorem CachedLabels.ok_empty : CachedLabels.Ok (⟨[], fun _ => none⟩ : CachedLabels L) :=
  ⟨List.Pairwise.nil, fun _ => rfl⟩

theorem DiskHistory.lin [Inhabited L] {h : LabelHistory L LayerName} (hh : DiskHistory h) :
    ∃ G, LinearizedBy sameLabel h G := by
  cases hh with
  | directory hs =>
    obtain ⟨g, G, hi⟩ := hs.inv
    exact ⟨G, hi.lin⟩
  | cached hs =>
    obtain ⟨G, hi⟩ := hs.inv CachedLabels.atomic (CachedLabels.ok_empty) rfl
    exact ⟨G, hi.lin⟩
  | locked hd hs => exact hs.lin hd

theorem MemoryHistory.lin {h : LabelHistory L N} (hh : MemoryHistory h) :
    ∃ G, LinearizedBy sameVersion h G := by
  cases hh with
  | memory hs =>
    obtain ⟨G, hi⟩ := hs.inv MemoryLabels.atomic List.Pairwise.nil rfl
    exact ⟨G, hi.lin⟩

theorem sameLabel_eq [DecidableEq N] (a b : LabelData N) (h : sameLabel a b = true) : a = b := by
  simpa [sameLabel] using h

theorem sameLabel_version [DecidableEq N] (a b : LabelData N) (h : sameLabel a b = true) :
    a.version = b.version := by
  rw [sameLabel_eq a b h]

theorem sameVersion_version (a b : LabelData N) (h : sameVersion a b = true) :
    a.version = b.version := by
  simpa [sameVersion] using h

theorem Exact.disk [DecidableEq N] (G : List (LabelEvent L N)) (n : L) : Exact sameLabel G n :=
  Or.inl sameLabel_eq

theorem Exact.memory (hG : LinearizedBy sameVersion h G) {n : L}
    (hd : ∀ k c, h k = some c → c.op ≠ .delete n) : Exact sameVersion G n := by
  refine Or.inr ⟨sameVersion_version, ?_⟩
  intro e he
  obtain ⟨c, h1, h2, _⟩ := hG.sound e he
  rw [← h2]
  exact hd _ c h1

/-! ### Two updates -/

/-- Of two events one comes first. -/
theorem ordered {A A' B B' : List (LabelEvent L N)} {e e' : LabelEvent L N}
    (h1 : G = A ++ e :: B) (h2 : G = A' ++ e' :: B') (hne : e.id ≠ e'.id) :
    (∃ C, A' = A ++ e :: C) ∨ ∃ C, A = A' ++ e' :: C := by
  rw [h1] at h2
  rcases List.append_eq_append_iff.1 h2 with ⟨C, c1, c2⟩ | ⟨C, c1, c2⟩
  · cases C with
    | nil =>
      simp only [List.nil_append, List.cons.injEq] at c2
      exact absurd (congrArg LabelEvent.id c2.1) hne
    | cons x C =>
      simp only [List.cons_append, List.cons.injEq] at c2
      exact Or.inl ⟨C, by rw [c1, ← c2.1]⟩
  · cases C with
    | nil =>
      simp only [List.nil_append, List.cons.injEq] at c2
      exact absurd (congrArg LabelEvent.id c2.1).symm hne
    | cons x C =>
      simp only [List.cons_append, List.cons.injEq] at c2
      exact Or.inr ⟨C, by rw [c1, ← c2.1]⟩

/-- After an update from a version, the next update from that version comes after a
deletion. -/
theorem delete_between (hv : ∀ a b, same a b = true → a.version = b.version)
    {A C : List (LabelEvent L N)} {e : LabelEvent L N} {n : L} {l old cur : LabelData N}
    (h1 : labelsAfter same (A ++ [e]) n = some l) (h2 : labelsAfter same (A ++ e :: C) n = some cur)
    (h3 : same cur old = true) (h4 : l.version = old.version + 1) :
    ∃ d ∈ C, d.op = .delete n := by
  apply Classical.byContradiction
  intro hno
  have hC : ∀ d ∈ C, d.op ≠ .delete n := fun d hd he => hno ⟨d, hd, he⟩
  obtain ⟨l', g1, g2, _⟩ := version_grows hv h1 C hC
  rw [Spec.labelsAfter, show A ++ e :: C = (A ++ [e]) ++ C by simp, stored_append, g1] at h2
  cases h2
  have := hv _ _ h3
  omega

theorem sorted_between (hso : G.Pairwise (fun a b => a.time ≤ b.time)) {A C B : List (LabelEvent L N)}
    {e d e' : LabelEvent L N} (hG : G = (A ++ e :: C) ++ e' :: B) (hd : d ∈ C) :
    e.time ≤ d.time ∧ d.time ≤ e'.time := by
  rw [hG, List.pairwise_append] at hso
  obtain ⟨h1, _, h3⟩ := hso
  rw [List.pairwise_append] at h1
  exact ⟨(List.pairwise_cons.1 h1.2.1).1 d hd, h3 d (by simp [hd]) e' (by simp)⟩

/-! ### Calls about one label -/

theorem Spec.LinearizedBy.only (hG : LinearizedBy same h G) (n : L) :
    LinearizedBy same (h.only n) (G.filter (fun e => decide (e.op.name = n))) := by
  refine ⟨answered_congr_filter G n rfl hG.answered, List.Pairwise.filter _ hG.sorted,
    List.Pairwise.filter _ hG.once, ?_, ?_⟩
  · intro i c r t hi hc hr
    simp only [LabelHistory.only, Option.bind_eq_some_iff] at hi
    obtain ⟨c', h1, h2⟩ := hi
    split at h2
    · rename_i hn
      cases h2
      obtain ⟨e, he, hid⟩ := hG.complete i c r t h1 hc hr
      refine ⟨e, List.mem_filter.2 ⟨he, ?_⟩, hid⟩
      obtain ⟨c', g1, g2, _⟩ := hG.sound e he
      rw [hid, h1] at g1
      cases g1
      simp [← g2, hn]
    · cases h2
  · intro e he
    obtain ⟨he, hn⟩ := List.mem_filter.1 he
    obtain ⟨c, h1, h2, h3⟩ := hG.sound e he
    refine ⟨c, ?_, h2, h3⟩
    simp only [decide_eq_true_eq] at hn
    simp [LabelHistory.only, h1, h2, hn]

/-! ### Versions of the directory -/

theorem DirLabels.labelsOf_ok {s : DirLabels L} {m : L → Option (LabelData LayerName)} :
    ∀ ns : List L, (∀ n ∈ ns, ∃ i l, s.dir n = some i ∧ m n = some l ∧
      readLabelFile (s.data i) = .ok l) →
    ∃ ls, s.labelsOf ns = .ok ls ∧ ls.map Prod.fst = ns ∧
      ∀ n l, (n, l) ∈ ls ↔ n ∈ ns ∧ m n = some l
  | [], _ => ⟨[], rfl, rfl, by simp⟩
  | n :: ns, hns => by
    obtain ⟨i, l, h1, h2, h3⟩ := hns n (by simp)
    obtain ⟨ls, g1, g2, g3⟩ := labelsOf_ok ns (fun k hk => hns k (by simp [hk]))
    refine ⟨(n, l) :: ls, ?_, by simp [g2], ?_⟩
    · simp only [labelsOf, h1, h3, g1]
      rfl
    · intro k l'
      simp only [List.mem_cons, g3]
      constructor
      · rintro (h | h)
        · cases h
          exact ⟨Or.inl rfl, h2⟩
        · exact ⟨Or.inr h.1, h.2⟩
      · rintro ⟨h | h, h'⟩
        · subst h
          rw [h2] at h'
          cases h'
          exact Or.inl rfl
        · exact Or.inr ⟨h, h'⟩

/-! ### Files of the cached store -/

/-- Calls that keep files whole: versions that fit, and no label that has a layer is
cleared. -/
def KeepsFile : LabelOp L LayerName → Prop
  | .set _ old layer => old.version + 1 < 2 ^ 64 ∧ (old.layer ≠ none → layer ≠ none)
  | _ => True

theorem CachedLabels.call_files {s : CachedLabels L} {op : LabelOp L LayerName} (hop : KeepsFile op)
    (hs : ∀ n, s.files n = (s.map.get? n).map labelFile)
    (hv : ∀ n l, s.map.get? n = some l → l.version < 2 ^ 64) :
    (∀ n, (call s op).2.files n = ((call s op).2.map.get? n).map labelFile) ∧
      ∀ n l, (call s op).2.map.get? n = some l → l.version < 2 ^ 64 := by
  have hput : ∀ (n : L) (l : LabelData LayerName) (b : Bytes), b = labelFile l →
      l.version < 2 ^ 64 →
      (∀ k, putFile s.files n (some b) k = ((s.map.insert n l).get? k).map labelFile) ∧
        ∀ k l', (s.map.insert n l).get? k = some l' → l'.version < 2 ^ 64 := by
    intro n l b hb hl
    constructor
    · intro k
      rw [putFile, LabelMap.get?_insert]
      by_cases hk : k = n
      · rw [if_pos hk]
        simp [hk, hb]
      · rw [if_neg hk]
        simp [hk, hs k]
    · intro k l' hk
      rw [LabelMap.get?_insert] at hk
      by_cases e : k = n
      · simp only [e, if_true, Option.some.injEq] at hk
        rw [← hk]
        exact hl
      · simp only [e, if_false] at hk
        exact hv k l' hk
  cases op with
  | create n =>
    simp only [call, create]
    split
    · exact ⟨hs, hv⟩
    · split
      · exact ⟨hs, hv⟩
      · exact hput n _ _ rfl (by simp [LabelData.newEmpty])
  | get n => exact ⟨hs, hv⟩
  | set n old layer =>
    simp only [call, set]
    split
    · exact ⟨hs, hv⟩
    · rename_i cur hcur
      split
      · rename_i he
        split
        · exact ⟨hs, hv⟩
        · rename_i b hb
          rw [hs n, hcur] at hb
          cases hb
          refine hput n _ _ ?_ hop.1
          apply overwrite_of_le
          rw [he]
          exact labelFile_length (by simp [LabelData.withUpdatedLayer]) hop.2
      · exact ⟨hs, hv⟩
  | delete n =>
    simp only [call, delete]
    split
    · exact ⟨hs, hv⟩
    · rename_i l hl
      rw [hs n, hl]
      refine ⟨?_, ?_⟩
      · intro k
        show putFile s.files n none k = ((s.map.remove n).get? k).map labelFile
        rw [putFile, LabelMap.get?_remove]
        by_cases hk : k = n
        · simp [hk]
        · simp [hk, hs k]
      · intro k l' hk
        replace hk : (s.map.remove n).get? k = some l' := hk
        rw [LabelMap.get?_remove] at hk
        by_cases e : k = n
        · simp [e] at hk
        · simp only [e, if_false] at hk
          exact hv k l' hk

theorem CachedLabels.run_files {s : Shared (CachedLabels L) L LayerName}
    (hs : Shared.Run CachedLabels.call ⟨[], fun _ => none⟩ s)
    (hop : ∀ i c, s.calls i = some c → KeepsFile c.op) :
    (∀ n, s.state.files n = (s.state.map.get? n).map labelFile) ∧
      ∀ n l, s.state.map.get? n = some l → l.version < 2 ^ 64 := by
  induction hs with
  | start => exact ⟨fun _ => rfl, fun n l h => by cases h⟩
  | @step s s' _ hst ih =>
    cases hst with
    | @start i op hi =>
      refine ih ?_
      intro k c hk
      apply hop k c
      show putCall _ _ _ k = some c
      rw [putCall_other _ _ (fun e => by rw [e, hi] at hk; cases hk)]
      exact hk
    | @work i c hi hc =>
      have hcop : KeepsFile c.op := by
        have := hop i _ (putCall_same _ _ _)
        exact this
      refine call_files hcop (ih ?_).1 (ih ?_).2 <;>
      · intro k c' hk
        by_cases e : k = i
        · subst e
          rw [hi] at hk
          cases hk
          exact hcop
        · exact hop k c' ((putCall_other _ _ e).trans hk)

end Verif
