import Verif.Lemmas.LabelHistory
import Verif.Props.LabelWitness
import Verif.Props.Store

/-!
Properties of labels: C32 (compare and swap), C33 (`set_head`), C34 (`force_set_head`), C35
(`force_set_head_version`), C37 (crashes), C38 (cached store and directory), C39 (labels as a
map).
-/

namespace Verif

open Spec

set_option linter.unusedSectionVars false

variable {L N : Type} [DecidableEq L]

/-- A layer name for examples. -/
def nm (k : U32) : LayerName := ⟨k, 0, 0, 0, 0⟩

/-! ### C32: compare and swap -/

/-- C32: each execution of callers of the directory store is as if the calls happened one at a
time, each between call and answer, on a map from names to labels with an update that compares
whole labels. The directory has a file for exactly the labels in the map, and the file says what
is in the map, unless a `create` of it is still under way. Calls that fail because the file
could not be read overlap with a `create` of the same label. -/
theorem C32_directory [Inhabited L] {s : DirLabels L} (hs : s.Run) :
    ∃ G, LinearizedBy sameLabel s.calls G ∧
      (∀ n, s.dir n = none → labelsAfter sameLabel G n = none) ∧
      (∀ n i, s.dir n = some i → ∃ l, labelsAfter sameLabel G n = some l ∧
        (readLabelFile (s.data i) = .ok l ∨
          ∃ k c, s.calls k = some c ∧ c.op = .create n ∧ c.answer = none)) ∧
      ∀ k c t, s.calls k = some c → c.answer = some (.unreadable, t) →
        ∃ k' c', s.calls k' = some c' ∧ c'.op = .create c.op.name ∧ c'.start ≤ t ∧
          ∀ r t', c'.answer = some (r, t') → t < t' := by
  obtain ⟨g, G, hi⟩ := hs.inv
  refine ⟨G, hi.lin, hi.gone, ?_, hi.unread⟩
  intro n i hn
  obtain ⟨h1, h2, h3⟩ := hi.inode n i hn
  refine ⟨g.label i, h3, ?_⟩
  rcases hi.data i h1 with hd | hd
  · left
    rw [hd]
    exact readLabelFile_labelFile _ (hi.version i h1)
  · right
    obtain ⟨k, c, _, c1, c2⟩ := hi.empty i h1 hd
    obtain ⟨_, _, _, m4, _⟩ := hi.made k c i (by simp) c1 c2
    exact ⟨k, c, c1, by rw [m4, h2], hi.unanswered k c c1 (by rw [c2]; simp)⟩

/-- C32: the same for the cached store, whose map is in memory; all its answers are proper. -/
theorem C32_cached {s : Shared (CachedLabels L) L LayerName}
    (hs : Shared.Run CachedLabels.call ⟨[], fun _ => none⟩ s) :
    ∃ G, LinearizedBy sameLabel s.calls G ∧ s.state.map.get? = labelsAfter sameLabel G ∧
      ∀ k c r t, s.calls k = some c → c.answer = some (r, t) → r ≠ .unreadable := by
  obtain ⟨G, hi⟩ := hs.inv CachedLabels.atomic CachedLabels.ok_empty rfl
  exact ⟨G, hi.lin, hi.state.symm, hi.readable⟩

/-- C32, in part: the store in memory compares versions only. -/
theorem C32_memory_partial {s : Shared (LabelMap L N) L N}
    (hs : Shared.Run MemoryLabels.call [] s) :
    ∃ G, LinearizedBy sameVersion s.calls G ∧ s.state.get? = labelsAfter sameVersion G ∧
      ∀ k c r t, s.calls k = some c → c.answer = some (r, t) → r ≠ .unreadable := by
  obtain ⟨G, hi⟩ := hs.inv MemoryLabels.atomic List.Pairwise.nil rfl
  exact ⟨G, hi.lin, hi.state.symm, hi.readable⟩

/-- C32: the labels on disk as the models of the whole interface have them (`Verif/Model/Api.lean`,
`Verif/Model/Conc.lean`): the same as the files, see `C32_cached` and `C32_directory`. -/
theorem C32_disk [DecidableEq N] {s : Shared (LabelMap L N) L N}
    (hs : Shared.Run DiskLabels.call [] s) :
    ∃ G, LinearizedBy sameLabel s.calls G ∧ s.state.get? = labelsAfter sameLabel G ∧
      ∀ k c r t, s.calls k = some c → c.answer = some (r, t) → r ≠ .unreadable := by
  obtain ⟨G, hi⟩ := hs.inv DiskLabels.atomic List.Pairwise.nil rfl
  exact ⟨G, hi.lin, hi.state.symm, hi.readable⟩

/-- C32: a successful update found exactly the label that the caller gave, stored the next
version of it with the new layer, and changed no other label. -/
theorem C32_success [DecidableEq N] {h : LabelHistory L N} {G : List (LabelEvent L N)}
    (hG : LinearizedBy sameLabel h G) {i t0 t1 : Nat} {n : L} {old new : LabelData N}
    {layer : Option N} (hi : h i = some ⟨.set n old layer, t0, some (.set (some new), t1)⟩) :
    ∃ A e B, G = A ++ e :: B ∧ e.id = i ∧ t0 ≤ e.time ∧ e.time ≤ t1 ∧
      labelsAfter sameLabel A n = some old ∧ new = ⟨layer, old.version + 1⟩ ∧
      labelsAfter sameLabel (A ++ [e]) = (labelsAfter sameLabel A).put n (some new) := by
  obtain ⟨A, e, B, cur, h1, h2, h3, h4, h5, h6, h7, h8⟩ := hG.updated hi
  refine ⟨A, e, B, h1, h2, h3, h4, ?_, h7, by rw [h8, h7]⟩
  rw [h5, sameLabel_eq _ _ h6]

/-- C32: a label is never refused if it still is what is stored. -/
theorem C32_refused [DecidableEq N] {h : LabelHistory L N} {G : List (LabelEvent L N)}
    (hG : LinearizedBy sameLabel h G) {i t0 t1 : Nat} {n : L} {old : LabelData N}
    {layer : Option N} (hi : h i = some ⟨.set n old layer, t0, some (.set none, t1)⟩) :
    ∃ A e B cur, G = A ++ e :: B ∧ e.id = i ∧ t0 ≤ e.time ∧ e.time ≤ t1 ∧
      labelsAfter sameLabel A n = some cur ∧ cur ≠ old := by
  obtain ⟨A, e, B, h1, h2, _, _, h3, h4, h5, h6⟩ := hG.event hi (by simp)
  simp only [callOn] at h5
  split at h5
  · cases h5
  · rename_i cur hc
    refine ⟨A, e, B, cur, h1, h2, h3, h4, hc, ?_⟩
    intro he
    rw [if_pos (by simp [sameLabel, he])] at h5
    cases h5

/-- C32: an update that does not report success changes nothing, with any comparison. -/
theorem C32_failure {same : LabelData N → LabelData N → Bool} {h : LabelHistory L N}
    {G : List (LabelEvent L N)} (hG : LinearizedBy same h G) {i t0 t1 : Nat} {n : L}
    {old : LabelData N} {layer : Option N} {r : LabelRes N}
    (hi : h i = some ⟨.set n old layer, t0, some (r, t1)⟩) (hr : ∀ l, r ≠ .set (some l)) :
    NoEffect same G [i] := by
  apply noEffect_of_quiet hG
  intro k hk
  rw [List.mem_singleton] at hk
  subst hk
  exact ⟨_, _, _, _, hi, Or.inr (Or.inr ⟨n, old, layer, rfl, hr⟩)⟩

theorem at_most_one {same : LabelData N → LabelData N → Bool}
    (hv : ∀ a b, same a b = true → a.version = b.version) {h : LabelHistory L N}
    {G : List (LabelEvent L N)} (hG : LinearizedBy same h G) {i j t0 t1 t2 t3 : Nat} {n : L}
    {old old' new new' : LabelData N} {layer layer' : Option N} (hne : i ≠ j)
    (hi : h i = some ⟨.set n old layer, t0, some (.set (some new), t1)⟩)
    (hj : h j = some ⟨.set n old' layer', t2, some (.set (some new'), t3)⟩)
    (he : old.version = old'.version) :
    ∃ k c, h k = some c ∧ c.op = .delete n ∧ (c.start ≤ t1 ∨ c.start ≤ t3) ∧
      ∀ r t, c.answer = some (r, t) → t0 ≤ t ∨ t2 ≤ t := by
  obtain ⟨A, e, B, cur, h1, h2, h3, h4, h5, h6, _, h7⟩ := hG.updated hi
  obtain ⟨A', e', B', cur', g1, g2, g3, g4, g5, g6, _, g7⟩ := hG.updated hj
  rcases ordered h1 g1 (by rw [h2, g2]; exact hne) with ⟨C, hC⟩ | ⟨C, hC⟩
  · obtain ⟨d, hd, hdo⟩ := delete_between hv (by rw [h7, put_same]) (by rw [← hC]; exact g5) g6
      (by simp [he])
    have hmem : d ∈ G := by rw [g1, hC]; simp [hd]
    obtain ⟨c, c1, c2, c3, c4⟩ := hG.sound d hmem
    have hb := sorted_between hG.sorted (by rw [g1, hC]) hd
    exact ⟨d.id, c, c1, by rw [c2, hdo], Or.inr (by omega), fun r t hr => Or.inl (by
      have := (c4 r t hr).2; omega)⟩
  · obtain ⟨d, hd, hdo⟩ := delete_between hv (by rw [g7, put_same]) (by rw [← hC]; exact h5) h6
      (by simp [he])
    have hmem : d ∈ G := by rw [h1, hC]; simp [hd]
    obtain ⟨c, c1, c2, c3, c4⟩ := hG.sound d hmem
    have hb := sorted_between hG.sorted (by rw [h1, hC]) hd
    exact ⟨d.id, c, c1, by rw [c2, hdo], Or.inl (by omega), fun r t hr => Or.inr (by
      have := (c4 r t hr).2; omega)⟩

/-- C32: of all updates of a label from the same version at most one succeeds, unless the label
is deleted meanwhile; on disk. -/
theorem C32_at_most_one [Inhabited L] {h : LabelHistory L LayerName} (hh : DiskHistory h)
    {i j t0 t1 t2 t3 : Nat} {n : L} {old old' new new' : LabelData LayerName}
    {layer layer' : Option LayerName} (hne : i ≠ j)
    (hi : h i = some ⟨.set n old layer, t0, some (.set (some new), t1)⟩)
    (hj : h j = some ⟨.set n old' layer', t2, some (.set (some new'), t3)⟩)
    (he : old.version = old'.version) :
    ∃ k c, h k = some c ∧ c.op = .delete n ∧ (c.start ≤ t1 ∨ c.start ≤ t3) ∧
      ∀ r t, c.answer = some (r, t) → t0 ≤ t ∨ t2 ≤ t := by
  obtain ⟨G, hG⟩ := hh.lin
  exact at_most_one sameLabel_version hG hne hi hj he

/-- C32: the same in memory. -/
theorem C32_at_most_one_memory {h : LabelHistory L N} (hh : MemoryHistory h)
    {i j t0 t1 t2 t3 : Nat} {n : L} {old old' new new' : LabelData N}
    {layer layer' : Option N} (hne : i ≠ j)
    (hi : h i = some ⟨.set n old layer, t0, some (.set (some new), t1)⟩)
    (hj : h j = some ⟨.set n old' layer', t2, some (.set (some new'), t3)⟩)
    (he : old.version = old'.version) :
    ∃ k c, h k = some c ∧ c.op = .delete n ∧ (c.start ≤ t1 ∨ c.start ≤ t3) ∧
      ∀ r t, c.answer = some (r, t) → t0 ≤ t ∨ t2 ≤ t := by
  obtain ⟨G, hG⟩ := hh.lin
  exact at_most_one sameVersion_version hG hne hi hj he

/-- Two callers update a label at the same time, interleaved, while a third reads it. -/
def race : List (LabelAct Nat LayerName) :=
  [.call 0 (.create 7), .go 0, .go 0, .call 9 (.get 7), .go 9, .go 9, .go 0,
    .call 1 (.set 7 ⟨none, 0⟩ (some (nm 1))), .call 2 (.set 7 ⟨none, 0⟩ (some (nm 2))),
    .go 2, .go 1, .go 1, .go 2, .call 3 (.get 7), .go 3, .go 3]

/-- One of two updates succeeds; a read before the new file is filled fails. -/
example : ∃ s : DirLabels Nat, s.Run ∧
    (s.calls 1).bind (·.answer) = some (.set (some ⟨some (nm 1), 1⟩), 11) ∧
    (s.calls 2).bind (·.answer) = some (.set none, 12) ∧
    (s.calls 3).bind (·.answer) = some (.got (some ⟨some (nm 1), 1⟩), 15) ∧
    (s.calls 9).bind (·.answer) = some (.unreadable, 5) :=
  ⟨DirLabels.exec {} race, DirLabels.exec_run .start race, by decide, by decide, by decide, by decide⟩

/-- A label is deleted and made again; then both updates from version 0 succeed. -/
def remade : List (LabelAct Nat Nat) :=
  [.call 0 (.create 7), .go 0, .call 1 (.set 7 ⟨none, 0⟩ (some 7)), .go 1, .call 2 (.get 7), .go 2,
    .call 3 (.delete 7), .go 3, .call 4 (.create 7), .go 4, .call 5 (.set 7 ⟨none, 0⟩ (some 8)),
    .go 5]

example : ∃ s : Shared (LabelMap Nat Nat) Nat Nat, Shared.Run MemoryLabels.call [] s ∧
    (s.calls 1).bind (·.answer) = some (.set (some ⟨some 7, 1⟩), 3) ∧
    (s.calls 5).bind (·.answer) = some (.set (some ⟨some 8, 1⟩), 11) :=
  ⟨Shared.exec _ ⟨[], fun _ => none, 0⟩ remade, Shared.exec_run _ .start remade, by decide,
    by decide⟩

/-- The hypothesis of `C32_disk`. -/
example : ∃ s : Shared (LabelMap Nat Nat) Nat Nat, Shared.Run DiskLabels.call [] s ∧
    (s.calls 1).bind (·.answer) = some (.set (some ⟨some 7, 1⟩), 3) ∧
    (s.calls 5).bind (·.answer) = some (.set (some ⟨some 8, 1⟩), 11) :=
  ⟨Shared.exec _ ⟨[], fun _ => none, 0⟩ remade, Shared.exec_run _ .start remade, by decide,
    by decide⟩

/-- Not C32: in memory, a caller that has read a label before it was deleted and made again
replaces another label of the same version. -/
theorem C32_memory_wrong : ∃ s s' : Shared (LabelMap Nat Nat) Nat Nat,
    Shared.Run MemoryLabels.call [] s ∧ Shared.Step MemoryLabels.call s s' ∧
      s.calls 6 = some ⟨.set 7 ⟨some 7, 1⟩ (some 9), 12, none⟩ ∧
      s.state.get? 7 = some ⟨some 8, 1⟩ ∧ s'.state.get? 7 = some ⟨some 9, 2⟩ :=
  ⟨Shared.exec _ ⟨[], fun _ => none, 0⟩ (remade ++ [.call 6 (.set 7 ⟨some 7, 1⟩ (some 9))]), _,
    Shared.exec_run _ .start _, .work (i := 6) rfl rfl, rfl, rfl, rfl⟩

end Verif
