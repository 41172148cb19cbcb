import Verif.Props.Label

/-!
Properties of label files: C37 (crashes), C38 (cached store and directory), C39 (labels as a
map).
-/

namespace Verif

open Spec

set_option linter.unusedSectionVars false

variable {L N : Type} [DecidableEq L]

/-! ### C37: crashes -/

/-- C37, in part: if the process stops during an update of the directory store, then the next
read gives the old label, the new label or an error, but no other label. Missing: it may be an
error, see `C37_directory_wrong`. -/
theorem C37_directory_partial {old : LabelData LayerName} {layer : Option LayerName}
    (hv : old.version + 1 < 2 ^ 64) {b : Bytes}
    (h : DirCrash (labelFile old) (labelFile (old.withUpdatedLayer layer)) b) :
    readLabelFile b = .ok old ∨ readLabelFile b = .ok (old.withUpdatedLayer layer) ∨
      readLabelFile b = .err := by
  cases h with
  | before => exact Or.inl (readLabelFile_labelFile old (by omega))
  | written k =>
    rcases readLabelFile_take (old.withUpdatedLayer layer) hv k with h | h
    · exact Or.inr (Or.inr h)
    · exact Or.inr (Or.inl h)

example : DirCrash (labelFile ⟨some (nm 1), 4⟩) (labelFile ⟨some (nm 2), 5⟩)
    ((labelFile ⟨some (nm 2), 5⟩).take 17) ∧
    readLabelFile ((labelFile ⟨some (nm 2), 5⟩).take 17) = .err ∧
    readLabelFile ((labelFile ⟨some (nm 2), 5⟩).take 42) = .ok ⟨some (nm 2), 5⟩ :=
  ⟨.written 17, by decide, by decide⟩

/-- Not C37: once the file is truncated neither label can be read. -/
theorem C37_directory_wrong (old : LabelData LayerName) (layer : Option LayerName) :
    ∃ b, DirCrash (labelFile old) (labelFile (old.withUpdatedLayer layer)) b ∧
      readLabelFile b = .err :=
  ⟨_, .written 0, DirLabels.readLabelFile_empty⟩

/-- C37, in part: the update of the cached store overwrites the file in place. If the new file is
no shorter than the old one, then before the first byte and after the last byte the file is that
of one of the two labels. Missing: the moments in between, see `C37_cached_wrong`. -/
theorem C37_cached_partial {old : LabelData LayerName} {layer : Option LayerName}
    (hv : old.version + 1 < 2 ^ 64) (hl : old.layer ≠ none → layer ≠ none) :
    readLabelFile (overwrite (labelFile old) ((labelFile (old.withUpdatedLayer layer)).take 0)) =
      .ok old ∧
    readLabelFile (overwrite (labelFile old) (labelFile (old.withUpdatedLayer layer))) =
      .ok (old.withUpdatedLayer layer) := by
  constructor
  · simpa [overwrite] using readLabelFile_labelFile old (by omega)
  · rw [overwrite_of_le (labelFile_length (by simp [LabelData.withUpdatedLayer]) hl)]
    exact readLabelFile_labelFile _ hv

/-- Not C37: if the process stops while the cached store overwrites the file, the next read may
give a label that was never stored, with the layer of neither. -/
theorem C37_cached_wrong : ∃ (old : LabelData LayerName) (layer : Option LayerName) (b : Bytes)
    (l : LabelData LayerName),
    CachedCrash (labelFile old) (labelFile (old.withUpdatedLayer layer)) b ∧
      readLabelFile b = .ok l ∧ l.layer ≠ old.layer ∧ l.layer ≠ layer :=
  ⟨⟨some (nm 0x11111111), 4⟩, some (nm 0x22222222), _, ⟨some (nm 0x22221111), 5⟩, .written 6,
    by decide, by decide, by decide⟩

/-- Not C37: a `create` that stops after making the file leaves a label that exists but that
can neither be read nor made again. -/
theorem C37_create_wrong : ∃ s : DirLabels Nat, s.Run ∧
    (s.calls 0).bind (·.answer) = none ∧
    (s.calls 1).bind (·.answer) = some (.unreadable, 5) ∧
    (s.calls 2).bind (·.answer) = some (.exists, 7) :=
  ⟨DirLabels.exec {} [.call 0 (.create 7), .go 0, .go 0, .call 1 (.get 7), .go 1,
      .go 1, .call 2 (.create 7), .go 2], DirLabels.exec_run .start _, by decide, by decide, by decide⟩

/-! ### C38: the cached store and its directory -/

/-- C38, in part: in each execution of the cached store in which no label that has a layer is
cleared, opening the directory again gives exactly the labels of the store. Missing: clearing a
label, see `C38_clear_wrong`. -/
theorem C38_reopen_partial {s : Shared (CachedLabels L) L LayerName}
    (hs : Shared.Run CachedLabels.call ⟨[], fun _ => none⟩ s)
    (hset : ∀ i c n old layer, s.calls i = some c → c.op = .set n old layer →
      old.version + 1 < 2 ^ 64 ∧ (old.layer ≠ none → layer ≠ none)) (n : L) :
    s.state.reopened n = (s.state.map.get? n).map .ok := by
  obtain ⟨h1, h2⟩ := CachedLabels.run_files hs (by
    intro i c hc
    cases ho : c.op with
    | set n old layer => exact hset i c n old layer hc ho
    | create n => trivial
    | get n => trivial
    | delete n => trivial)
  rw [CachedLabels.reopened, h1 n]
  cases hn : s.state.map.get? n with
  | none => rfl
  | some l =>
    show some (readLabelFile (labelFile l)) = some (.ok l)
    rw [readLabelFile_labelFile l (h2 n l hn)]

/-- Updates that make the file longer, and a deletion. -/
def longer : List (LabelAct Nat LayerName) :=
  [.call 0 (.create 7), .go 0, .call 1 (.create 8), .go 1, .call 2 (.set 7 ⟨none, 0⟩ (some (nm 5))),
    .go 2, .call 3 (.delete 8), .go 3, .call 4 (.set 7 ⟨some (nm 5), 1⟩ (some (nm 6))), .go 4]

example : ∃ s : Shared (CachedLabels Nat) Nat LayerName,
    Shared.Run CachedLabels.call ⟨[], fun _ => none⟩ s ∧
    (∀ i c n old layer, s.calls i = some c → c.op = .set n old layer →
      old.version + 1 < 2 ^ 64 ∧ (old.layer ≠ none → layer ≠ none)) ∧
    s.state.reopened 7 = some (.ok ⟨some (nm 6), 2⟩) ∧ s.state.reopened 8 = none := by
  refine ⟨_, Shared.exec_run _ .start longer, ?_, by decide, by decide⟩
  intro i c n old layer hc ho
  rcases Shared.exec_calls _ _ hc with ⟨_, h, _⟩ | h
  · cases h
  · rw [ho] at h
    simp [longer] at h
    rcases h with ⟨_, _, rfl, rfl⟩ | ⟨_, _, rfl, rfl⟩ <;> simp

/-- Not C38: after a label that has a layer is cleared, the store says that it has none, but the
directory cannot be opened any more, because the file has a third line. -/
theorem C38_clear_wrong : ∃ s : Shared (CachedLabels Nat) Nat LayerName,
    Shared.Run CachedLabels.call ⟨[], fun _ => none⟩ s ∧
      s.state.map.get? 7 = some ⟨none, 2⟩ ∧ s.state.reopened 7 = some .err :=
  ⟨_, Shared.exec_run _ .start [.call 0 (.create 7), .go 0,
    .call 1 (.set 7 ⟨none, 0⟩ (some (nm 5))), .go 1, .call 2 (.set 7 ⟨some (nm 5), 1⟩ none), .go 2],
    by decide, by decide⟩

/-! ### C39: labels as a map -/

/-- C39: the calls about one label are answered as if there were no others, and what is stored
for it only depends on them; whatever the comparison of labels. -/
theorem C39_independent {same : LabelData N → LabelData N → Bool} {h : LabelHistory L N}
    {G : List (LabelEvent L N)} (hG : LinearizedBy same h G) (n : L) :
    LinearizedBy same (h.only n) (G.filter (fun e => decide (e.op.name = n))) ∧
      labelsAfter same G n =
        labelsAfter same (G.filter (fun e => decide (e.op.name = n))) n :=
  ⟨hG.only n, stored_filter _ _ _⟩

/-- C39: `create` succeeds iff there is no such label, which then is at version 0 without a
layer; `get` gives what is stored; `delete` says whether there was a label and removes it. -/
theorem C39_answers {same : LabelData N → LabelData N → Bool} {h : LabelHistory L N}
    {G : List (LabelEvent L N)} (hG : LinearizedBy same h G) {i t0 t1 : Nat} {op : LabelOp L N}
    {r : LabelRes N} (hi : h i = some ⟨op, t0, some (r, t1)⟩) (hr : r ≠ .unreadable) :
    ∃ A e B, G = A ++ e :: B ∧ e.id = i ∧ t0 ≤ e.time ∧ e.time ≤ t1 ∧
      (∀ n, op = .create n →
        (r = .created ∧ labelsAfter same A n = none ∧
          labelsAfter same (A ++ [e]) n = some ⟨none, 0⟩) ∨
        (r = .exists ∧ labelsAfter same A n ≠ none ∧
          labelsAfter same (A ++ [e]) n = labelsAfter same A n)) ∧
      (∀ n, op = .get n → r = .got (labelsAfter same A n) ∧
        labelsAfter same (A ++ [e]) n = labelsAfter same A n) ∧
      (∀ n, op = .delete n → labelsAfter same (A ++ [e]) n = none ∧
        ∃ b, r = .deleted b ∧ (b = true ↔ labelsAfter same A n ≠ none)) ∧
      ∀ n, n ≠ op.name → labelsAfter same (A ++ [e]) n = labelsAfter same A n := by
  obtain ⟨A, e, B, h1, h2, _, _, h3, h4, h5, h6⟩ := hG.event hi hr
  refine ⟨A, e, B, h1, h2, h3, h4, ?_, ?_, ?_, ?_⟩
  · rintro n rfl
    rw [h6, h5]
    simp only [callOn]
    cases hn : labelsAfter same A n with
    | none => exact Or.inl ⟨rfl, rfl, put_same _ _ _⟩
    | some l => exact Or.inr ⟨rfl, by simp, hn⟩
  · rintro n rfl
    exact ⟨h5, by rw [h6]; rfl⟩
  · rintro n rfl
    refine ⟨by rw [h6]; exact put_same _ _ _, _, h5, ?_⟩
    cases labelsAfter same A n <;> simp
  · intro n hn
    rw [h6]
    exact callOn_other _ _ hn

/-- C39: in the cached store `labels` lists exactly the labels that are stored, each once. -/
theorem C39_labels_cached {s : Shared (CachedLabels L) L LayerName}
    (hs : Shared.Run CachedLabels.call ⟨[], fun _ => none⟩ s) :
    ∃ G, LinearizedBy sameLabel s.calls G ∧
      (s.state.labels.map Prod.fst).Nodup ∧
      ∀ n l, (n, l) ∈ s.state.labels ↔ labelsAfter sameLabel G n = some l := by
  obtain ⟨G, hi⟩ := hs.inv CachedLabels.atomic CachedLabels.ok_empty rfl
  refine ⟨G, hi.lin, ?_, ?_⟩
  · exact List.pairwise_map.2 hi.ok.1
  · intro n l
    rw [Spec.labelsAfter, hi.state]
    exact hi.ok.1.mem_iff n l

/-- C39: the same in memory. -/
theorem C39_labels_memory {s : Shared (LabelMap L N) L N}
    (hs : Shared.Run MemoryLabels.call [] s) :
    ∃ G, LinearizedBy sameVersion s.calls G ∧
      ((MemoryLabels.labels s.state).map Prod.fst).Nodup ∧
      ∀ n l, (n, l) ∈ MemoryLabels.labels s.state ↔ labelsAfter sameVersion G n = some l := by
  obtain ⟨G, hi⟩ := hs.inv MemoryLabels.atomic List.Pairwise.nil rfl
  refine ⟨G, hi.lin, ?_, ?_⟩
  · exact List.pairwise_map.2 hi.ok
  · intro n l
    rw [Spec.labelsAfter, hi.state]
    exact hi.ok.mem_iff n l

/-- C39, in part: in the directory store, when no `create` is under way, `labels` lists exactly
the labels that are stored; if one of the files is gone before it is read, it returns an error.
Missing: listings during other calls; they may fail. -/
theorem C39_labels_directory_partial [Inhabited L] {s : DirLabels L} (hs : s.Run)
    (hq : ∀ k c n, s.calls k = some c → c.op = .create n → c.answer ≠ none) {ns : List L}
    (hns : ∀ n, n ∈ ns ↔ s.dir n ≠ none) :
    ∃ G ls, LinearizedBy sameLabel s.calls G ∧ s.labelsOf ns = .ok ls ∧ ls.map Prod.fst = ns ∧
      (∀ n l, (n, l) ∈ ls ↔ labelsAfter sameLabel G n = some l) ∧
      ∀ ns', (∃ n ∈ ns', s.dir n = none) → s.labelsOf ns' = .err := by
  obtain ⟨G, hG, h1, h2, _⟩ := C32_directory hs
  have hgone : ∀ ns' : List L, (∃ n ∈ ns', s.dir n = none) → s.labelsOf ns' = .err := by
    intro ns'
    induction ns' with
    | nil => rintro ⟨n, hn, _⟩; cases hn
    | cons m ns' ih =>
      rintro ⟨n, hn, hd⟩
      unfold DirLabels.labelsOf
      cases hm : s.dir m with
      | none => rfl
      | some i =>
        obtain ⟨l, l1, l2⟩ := h2 m i hm
        have hr : readLabelFile (s.data i) = .ok l := by
          rcases l2 with l2 | ⟨k, c, c1, c2, c3⟩
          · exact l2
          · exact absurd c3 (hq k c m c1 c2)
        rcases List.mem_cons.1 hn with rfl | hn
        · rw [hd] at hm; cases hm
        · simp only [hr, ih ⟨n, hn, hd⟩]
          rfl
  obtain ⟨ls, g1, g2, g3⟩ := DirLabels.labelsOf_ok (s := s) (m := labelsAfter sameLabel G) ns (by
    intro n hn
    cases hd : s.dir n with
    | none => exact absurd hd ((hns n).1 hn)
    | some i =>
      obtain ⟨l, l1, l2⟩ := h2 n i hd
      rcases l2 with l2 | ⟨k, c, c1, c2, c3⟩
      · exact ⟨i, l, rfl, l1, l2⟩
      · exact absurd c3 (hq k c n c1 c2))
  refine ⟨G, ls, hG, g1, g2, ?_, hgone⟩
  intro n l
  rw [g3, hns]
  constructor
  · exact fun h => h.2
  · intro h
    refine ⟨fun hd => ?_, h⟩
    rw [h1 n hd] at h
    cases h

example : ∃ s : DirLabels Nat, s.Run ∧
    s.labelsOf [7, 8] = .ok [(7, ⟨some (nm 5), 1⟩), (8, ⟨none, 0⟩)] ∧ s.dir 9 = none :=
  ⟨_, DirLabels.exec_run .start [.call 0 (.create 7), .call 1 (.create 8), .go 0, .go 1, .go 1, .go 0,
    .go 0, .go 1, .call 2 (.set 7 ⟨none, 0⟩ (some (nm 5))), .go 2, .go 2, .call 3 (.create 9), .go 3,
    .go 3, .go 3, .call 4 (.delete 9), .go 4], by decide, by decide⟩

/-- C39: different labels have different files, and a label is listed, and read, under its own
name, if the name is not empty. -/
theorem C39_file_names (n m : Text) : (labelFileName n = labelFileName m → n = m) ∧
    (n ≠ [] → fileStem (labelFileName n) = n) :=
  ⟨labelFileName_inj, fun h => (fileStem_label n).2 h⟩

example : fileStem (labelFileName [97, 46, 98]) = [97, 46, 98] := by decide

/-- Not C39: a label whose name is empty is read under another name, and no update of it ever
succeeds, whatever the caller has read. -/
theorem C39_empty_name_wrong (b : Bytes) (l : LabelData LayerName) (layer : Option LayerName)
    (h : readNamedLabel [] b = .ok ([46, 108, 97, 98, 101, 108], l)) :
    setNamedLabel b ([], l) layer = .ok none := by
  unfold setNamedLabel
  simp only [h, bind, Out.bind]
  rw [if_neg (by simp)]
  rfl

example : readNamedLabel [] (labelFile ⟨none, 0⟩) = .ok ([46, 108, 97, 98, 101, 108], ⟨none, 0⟩) := by
  decide

/-- With a name that is not empty the name in the comparison does not matter. -/
theorem C39_named_update (n : Text) (hn : n ≠ []) (b : Bytes) (old : LabelData LayerName)
    (layer : Option LayerName) :
    setNamedLabel b (n, old) layer = (readLabelFile b).bind fun l =>
      .ok (if l = old then some (labelFile (old.withUpdatedLayer layer)) else none) := by
  unfold setNamedLabel readNamedLabel
  rw [(fileStem_label n).2 hn]
  cases readLabelFile b with
  | ok l =>
    simp only [bind, Out.bind, pure]
    by_cases e : l = old
    · simp [e]
    · simp [e]
  | err => rfl
  | panic => rfl

end Verif
