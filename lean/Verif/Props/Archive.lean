import Verif.Lemmas.ArchiveRollup

/-!
Archived layers: C41, C42.
-/

namespace Verif

open FileSpec

theorem beforeFinal_isSome {n : LayerName} {L : List ArchEvent} :
    (beforeFinal n L).isSome ↔ .finalized n ∈ L := by
  induction L with
  | nil => simp [beforeFinal]
  | cons e L ih =>
    cases e with
    | finalized n' =>
      by_cases h : n' = n
      · subst h; simp [beforeFinal]
      · have : beforeFinal n (.finalized n' :: L) = beforeFinal n L := if_neg h
        rw [this, ih, List.mem_cons]
        constructor
        · exact Or.inr
        · rintro (h' | h')
          · cases h'; exact absurd rfl h
          · exact h'
    | _ => simpa [beforeFinal] using ih

/-- Reads can go on with any buffers. -/
theorem SliceReader.reads_total (caps : List Nat) (r : SliceReader) :
    ∃ tr, r.Reads tr ∧ tr.map (·.1) = caps := by
  induction caps generalizing r with
  | nil => exact ⟨[], .nil, rfl⟩
  | cons cap caps ih =>
    obtain ⟨tr, h1, h2⟩ := ih (r.read (min cap r.rest.length)).2
    refine ⟨_, .cons (cap := cap) (got := min cap r.rest.length)
      ⟨Nat.min_le_left _ _, Nat.min_le_right _ _, fun h => ?_⟩ h1, by simp [h2]⟩
    rcases Nat.le_total cap r.rest.length with hl | hl
    · rw [Nat.min_eq_left hl] at h; exact Or.inl h
    · rw [Nat.min_eq_right hl] at h; exact Or.inr (List.length_eq_zero_iff.mp h)

/-- C41: in every state of a store, a file of a layer that was finalized is there if and only
if it was synced before; then its size and its contents are those of what was written, and
reads from any offset in it, with any buffers, follow these contents. A file that was not
synced is reported absent. -/
theorem C41_archived_files {c : OffsetCodec} {s : ArchStore} {L : List ArchEvent}
    (h : ArchStore.Run c s L) {n : LayerName} (hn : .finalized n ∈ L) {f : FileName}
    {k : FileKind} (hf : f.kind = .ok k) (hk : k ≠ FileKind.rollup) :
    s.getFile n f = .ok (.persistent n k, s) ∧
    s.fileExists n f = .ok (stored L n k).isSome ∧
    s.handleExists (.persistent n k) = .ok (stored L n k).isSome ∧
    (stored L n k = none →
      s.handleSize c (.persistent n k) = .err ∧ s.handleMap c (.persistent n k) = .err ∧
      ∀ off, s.handleOpenRead c off (.persistent n k) = .err) ∧
    (∀ b, stored L n k = some b →
      s.handleSize c (.persistent n k) = .ok b.length ∧
      s.handleMap c (.persistent n k) = .ok b ∧
      ∀ off, off ≤ b.length → ∃ r, s.handleOpenRead c off (.persistent n k) = .ok r ∧
        (∀ caps, ∃ tr, r.Reads tr ∧ tr.map (·.1) = caps) ∧
        ∀ tr, r.Reads tr → Follows (b.drop off) tr) := by
  obtain ⟨files, hb, hd, hw, hst⟩ := h.inv.is_stored (beforeFinal_isSome.mpr hn)
  have hex : s.disk.layerFileExists n k = .ok (stored L n k).isSome := by
    obtain ⟨b, h1, h2⟩ := ArchDir.layerFileExists_eq hw hd k
    rw [h1]
    congr 1
    cases hs : stored L n k with
    | none =>
      cases b with
      | false => rfl
      | true =>
        obtain ⟨x, hx⟩ := h2.mp rfl
        rw [(hst k x).mp hx] at hs; cases hs
    | some x => exact h2.mpr ⟨x, (hst k x).mpr hs⟩
  refine ⟨?_, ?_, hex, fun hs => ?_, fun b hs => ?_⟩
  · unfold ArchStore.getFile
    rw [hf]
    show (if k = FileKind.rollup then _ else _) = _
    rw [if_neg hk, hb]
  · unfold ArchStore.fileExists
    rw [hf]
    show (if k = FileKind.rollup then _ else _) = _
    rw [if_neg hk, hb]
    exact hex
  · have hno : ∀ b, (k, b) ∉ files := fun b hb' => by rw [(hst k b).mp hb'] at hs; cases hs
    refine ⟨ArchDir.getStructureSize_none hw hd hno, ?_, fun off => ?_⟩
    · show (s.disk.getStructureBytes c n k).bind _ = _
      rw [ArchDir.getStructureBytes_none hw hd hno]
      rfl
    · show (s.disk.readFrom c n k off).bind _ = _
      rw [ArchDir.readFrom_none hw hd hno]
      rfl
  · have hm := (hst k b).mpr hs
    refine ⟨ArchDir.getStructureSize_some hw hd hm, ?_, fun off ho => ?_⟩
    · show (s.disk.getStructureBytes c n k).bind _ = _
      rw [ArchDir.getStructureBytes_some hw hd hm]
      rfl
    · obtain ⟨r, h1, h2, h3⟩ := ArchDir.readFrom_some hw hd hm ho
      refine ⟨.persistent r, ?_, fun caps => ?_, fun tr htr => ?_⟩
      · show (s.disk.readFrom c n k off).bind _ = _
        rw [h1]
        rfl
      · obtain ⟨tr, g1, g2⟩ := SliceReader.reads_total caps r
        exact ⟨tr, .persistent g1, g2⟩
      · cases htr with
        | persistent htr => exact SliceReader.follows htr (by simp [h2]) h3

/-- C41: a layer that was finalized is not changed any more. -/
theorem C41_unchanged {c : OffsetCodec} {s s' : ArchStore} {L L' : List ArchEvent}
    (h : ArchStore.Run c s L) (hs : ArchStore.Step c s L s' L') {n : LayerName}
    (hn : .finalized n ∈ L) (k : FileKind) : .finalized n ∈ L' ∧ stored L' n k = stored L n k := by
  have hk := hs.final_kept h.inv (beforeFinal_isSome.mpr hn)
  refine ⟨beforeFinal_isSome.mp (by rw [hk]; exact beforeFinal_isSome.mpr hn), ?_⟩
  unfold stored
  rw [hk]

/-- C41: the parent that a finalized layer reports is the one in its parent file, and there is
none without such a file. -/
theorem C41_parent {c : OffsetCodec} {s : ArchStore} {L : List ArchEvent}
    (h : ArchStore.Run c s L) {n : LayerName} (hn : .finalized n ∈ L) :
    (stored L n FileKind.parent = none → s.layerParent c n = .ok none) ∧
    ∀ p, stored L n FileKind.parent = some (parentFile p) → s.layerParent c n = .ok (some p) := by
  obtain ⟨files, hb, hd, hw, hst⟩ := h.inv.is_stored (beforeFinal_isSome.mpr hn)
  refine ⟨fun hs => ?_, fun p hs => ?_⟩
  · show (s.disk.getStructureBytes c n FileKind.parent).bind _ = _
    rw [ArchDir.getStructureBytes_none hw hd
      (fun b hb' => by rw [(hst _ b).mp hb'] at hs; cases hs)]
    rfl
  · have : ArchDir.parentName (parentFile p) = .ok p := by
      unfold ArchDir.parentName parentFile
      have hl := nameToString_length p
      have ha := @nameToString_ascii p
      have hr := stringToName_nameToString p
      generalize nameToString p = t at hl ha hr
      rw [if_neg (by omega), List.take_of_length_le (by omega), utf8Lossy_ascii _ ha, hr]
      rfl
    generalize parentFile p = t at this hs
    show (s.disk.getStructureBytes c n FileKind.parent).bind _ = _
    rw [ArchDir.getStructureBytes_some hw hd ((hst _ _).mpr hs)]
    show (ArchDir.parentName t).bind _ = _
    rw [this]
    rfl

/-- C41: the bytes of an archive do not depend on the order in which the map of its files is
walked (`files` of src/storage/archive.rs:1476-1480 comes from a hash map). -/
theorem C41_file_order (c : OffsetCodec) {files files' : List (FileKind × Bytes)}
    (h : files.Perm files') (hn : (files.map (·.1)).Nodup) :
    Archive.encode c files = Archive.encode c files' := by
  have hn' : (files'.map (·.1)).Nodup := (h.map _).nodup_iff.mp hn
  have e : Archive.sortFiles files = Archive.sortFiles files' := by
    refine List.Perm.eq_of_pairwise (le := fun a b => a.1 ≤ b.1) ?_
      (Archive.sortFiles_sorted _) (Archive.sortFiles_sorted _)
      ((Archive.sortFiles_perm _).trans (h.trans (Archive.sortFiles_perm _).symm))
    intro a b ha hb h1 h2
    have ha' := (Archive.sortFiles_perm _).mem_iff.mp ha
    have hb' := h.mem_iff.mpr ((Archive.sortFiles_perm _).mem_iff.mp hb)
    have e : a.1 = b.1 := le_antisymm h1 h2
    have l1 := lookup_of_mem (a := a.1) (b := a.2) hn ha'
    have l2 := lookup_of_mem (a := b.1) (b := b.2) hn hb'
    rw [e, l2] at l1
    exact Prod.ext e (Option.some.inj l1).symm
  unfold Archive.encode
  rw [e]

/-- Beyond C41: an offset past the end of an archived file panics, while a file under
construction returns an error (`C44_construction_file`). -/
theorem archive_read_past_end {c : OffsetCodec} {s : ArchStore} {L : List ArchEvent}
    (h : ArchStore.Run c s L) {n : LayerName} (hn : .finalized n ∈ L) {k : FileKind} {b : Bytes}
    (hs : stored L n k = some b) {off : Nat} (ho : b.length < off) :
    s.handleOpenRead c off (.persistent n k) = .panic := by
  obtain ⟨files, hb, hd, hw, hst⟩ := h.inv.is_stored (beforeFinal_isSome.mpr hn)
  show (s.disk.readFrom c n k off).bind _ = _
  rw [ArchDir.readFrom_past hw hd ((hst k b).mpr hs) ho]
  rfl

/-! ### Rollup files -/

/-- C42, without the size: in every state of a store, the rollup file of a layer is there if
and only if a rollup was registered; then it maps and streams the same text, from which the
rollup that was registered last is read. What is missing is the size, `C42_size_wrong`. -/
theorem C42_rollup_file_partial {c : OffsetCodec} {s : ArchStore} {L : List ArchEvent}
    (h : ArchStore.Run c s L) (n : LayerName) :
    s.handleExists (.rollup n) = .ok (rollupOf n L).isSome ∧
    (rollupOf n L = none → s.handleMap c (.rollup n) = .err ∧ s.handleSize c (.rollup n) = .err) ∧
    ∀ r, rollupOf n L = some r → s.disk.getRollup n = .ok (some r) ∧
      ∃ b, s.handleMap c (.rollup n) = .ok b ∧ readRollupFile b = .ok r ∧
        ∀ off, off ≤ b.length → ∃ rd, s.handleOpenRead c off (.rollup n) = .ok rd ∧
          (∀ caps, ∃ tr, rd.Reads tr ∧ tr.map (·.1) = caps) ∧
          ∀ tr, rd.Reads tr → Follows (b.drop off) tr := by
  have hr := h.rolled
  have hg : s.disk.getRollup n = .ok (rollupOf n L) := by
    cases hro : rollupOf n L with
    | some r =>
      exact ArchStore.getRollup_of (hr.layer n (by rw [hro]; rfl)) (by rw [hr.files, hro]; rfl)
    | none =>
      unfold ArchDir.getRollup
      split
      · rfl
      · rw [hr.files, hro]; rfl
  refine ⟨?_, fun hn => ⟨?_, ?_⟩, fun r hro => ⟨by rw [hg, hro], [49, 10] ++ nameToString r, ?_, ?_, ?_⟩⟩
  · show (s.disk.getRollup n).bind _ = _
    rw [hg]; rfl
  · show (s.disk.getRollup n).bind _ = _
    rw [hg, hn]; rfl
  · show (s.disk.getRollup n).bind _ = _
    rw [hg, hn]; rfl
  · show (s.disk.getRollup n).bind _ = _
    rw [hg, hro]; rfl
  · have hl := nameToString_length r
    have ha := @nameToString_ascii r
    have hm := @nameToString_mem r
    have hst := stringToName_nameToString r
    unfold readRollupFile
    generalize nameToString r = t at hl ha hm hst
    rw [utf8Lossy_ascii]
    · have : [49, 10] ++ t = [49] ++ 10 :: t := by simp
      rw [this, Text.lines_line, Text.lines_last]
      · exact hst
      · intro c hc
        obtain ⟨d, hd, rfl⟩ := hm hc
        exact ⟨(digitChar_ne d hd).1, (digitChar_ne d hd).2.1⟩
      · intro e; rw [e] at hl; cases hl
      · intro c hc
        simp at hc; omega
    · intro c hc
      simp only [List.mem_append, List.mem_cons, List.not_mem_nil, or_false] at hc
      rcases hc with h | h
      · omega
      · exact ha c h
  · intro off ho
    have hmap : RollupFile.map s.disk n = .ok ([49, 10] ++ nameToString r) := by
      show (s.disk.getRollup n).bind _ = _
      rw [hg, hro]; rfl
    generalize [49, 10] ++ nameToString r = t at ho hmap
    refine ⟨.rollup (t.drop off), ?_, fun caps => ⟨_, .rollup caps, bytesReads_caps _ _⟩,
      fun tr htr => ?_⟩
    · have : RollupFile.openReadFrom s.disk n off = .ok (t.drop off) := by
        show (RollupFile.map s.disk n).bind _ = _
        rw [hmap]
        show (if t.length < off then _ else _) = _
        rw [if_neg (by omega)]
      show (RollupFile.openReadFrom s.disk n off).bind _ = _
      rw [this]; rfl
    · cases htr
      exact bytesReads_follows _ _

/-- C42 is false: whenever there is a rollup file, its size is reported as 22 and its contents
have 42 bytes. -/
theorem C42_size_wrong {c : OffsetCodec} {s : ArchStore} {L : List ArchEvent}
    (h : ArchStore.Run c s L) {n : LayerName} (hr : (rollupOf n L).isSome) :
    s.handleSize c (.rollup n) = .ok 22 ∧
      ∃ b, s.handleMap c (.rollup n) = .ok b ∧ b.length = 42 := by
  cases hro : rollupOf n L with
  | none => rw [hro] at hr; cases hr
  | some r =>
    have hg := ((C42_rollup_file_partial h n).2.2 r hro).1
    refine ⟨?_, [49, 10] ++ nameToString r, ?_, ?_⟩
    · show (s.disk.getRollup n).bind _ = _
      rw [hg]; rfl
    · show (s.disk.getRollup n).bind _ = _
      rw [hg]; rfl
    · rw [List.length_append, nameToString_length]; rfl

/-! ### A run -/

namespace ArchiveExample

/-- A call. -/
inductive Act where
  | create (n : LayerName)
  | get (n : LayerName) (f : FileName)
  | writeBytes (n : LayerName) (k : FileKind) (b : Bytes)
  | write (h : Nat) (buf : Bytes)
  | sync (h : Nat)
  | finalize (n : LayerName)
  | rollup (n : LayerName) (data : Bytes)

/-- Make a call and note it; `none` if it fails. -/
def exec (c : OffsetCodec) (s : ArchStore) (L : List ArchEvent) :
    Act → Option (ArchStore × List ArchEvent)
  | .create n => match s.createNamed n with
    | .ok s' => some (s', .created n :: L)
    | _ => none
  | .get n f => match f.kind, s.getFile n f with
    | .ok k, .ok (h, s') =>
      if h = .construction s.heap.length then some (s', .opened n k s.heap.length :: L)
      else some (s', L)
    | _, _ => none
  | .writeBytes n k b => match s.writeBytes n k b with
    | .ok s' => some (s',
        .synced s.heap.length :: .wrote s.heap.length b :: .opened n k s.heap.length :: L)
    | _ => none
  | .write h buf => match s.handleWrite h buf with
    | .ok (_, s') => some (s', .wrote h buf :: L)
    | _ => none
  | .sync h => match s.handleSync h with
    | .ok s' => some (s', .synced h :: L)
    | _ => none
  | .finalize n => match s.finalize c n with
    | .ok s' => some (s', .finalized n :: L)
    | _ => none
  | .rollup n data => match RollupFile.writeSync s.disk n data with
    | .ok d => match d.getRollup n with
      | .ok (some r) => some ({ s with disk := d }, .rolled n r :: L)
      | _ => none
    | _ => none

/-- Make some calls. -/
def script (c : OffsetCodec) (s : ArchStore) (L : List ArchEvent) :
    List Act → Option (ArchStore × List ArchEvent)
  | [] => some (s, L)
  | a :: as => match exec c s L a with
    | none => none
    | some (s', L') => script c s' L' as

theorem exec_step {c : OffsetCodec} {s s' : ArchStore} {L L' : List ArchEvent} {a : Act}
    (h : exec c s L a = some (s', L')) : ArchStore.Step c s L s' L' := by
  cases a <;> simp only [exec] at h
  case create n => split at h <;> cases h; rename_i e; exact .create e
  case get n f =>
    split at h
    · rename_i hk hg
      split at h
      · rename_i e; cases h; subst e; exact .getNew hk hg
      · rename_i e; cases h; exact .getOld hg e
    · cases h
  case writeBytes n k b => split at h <;> cases h; rename_i e; exact .writeBytes e
  case write hd buf => split at h <;> cases h; rename_i e; exact .write e
  case sync hd => split at h <;> cases h; rename_i e; exact .sync e
  case finalize n => split at h <;> cases h; rename_i e; exact .finalize e
  case rollup n data =>
    split at h
    · rename_i e
      split at h <;> cases h
      rename_i e'
      exact .rollup e e'
    · cases h

theorem script_run {c : OffsetCodec} {as : List Act} {s s' : ArchStore} {L L' : List ArchEvent}
    (hr : ArchStore.Run c s L) (h : script c s L as = some (s', L')) : ArchStore.Run c s' L' := by
  induction as generalizing s L with
  | nil => cases h; exact hr
  | cons a as ih =>
    unfold script at h
    split at h
    · cases h
    · rename_i e; exact ih (hr.step (exec_step e)) h

def n1 : LayerName := ⟨1, 2, 3, 4, 5⟩
def n2 : LayerName := ⟨255, 0, 0, 0, 1⟩

/-- A layer with a file written in two parts, a file that is not synced, an empty file and a
parent; it gets a rollup. -/
def acts : List Act :=
  [.create n1, .get n1 "predicate_dictionary_blocks.tfc", .write 0 [1, 2, 3],
   .get n1 "node_dictionary_blocks.tfc", .write 1 [9], .write 0 [4, 5], .sync 0,
   .get n1 "base_subjects.logarray", .sync 2, .writeBytes n1 FileKind.parent (parentFile n2),
   .get n1 "predicate_dictionary_blocks.tfc", .finalize n1, .rollup n1 (rollupFile n2)]

def log : List ArchEvent := ((script .plain {} [] acts).map (·.2)).getD []

/-- A state in which `n1` is finalized and has a rollup. -/
theorem reached : ∃ s, ArchStore.Run .plain s log := by
  have h : (script .plain {} [] acts).isSome := by decide
  cases e : script .plain {} [] acts with
  | none => rw [e] at h; cases h
  | some q =>
    refine ⟨q.1, ?_⟩
    have : log = q.2 := by unfold log; rw [e]; rfl
    rw [this]
    exact script_run .start e

example : .finalized n1 ∈ log := by decide
example : stored log n1 2 = some [1, 2, 3, 4, 5] := by decide
example : stored log n1 14 = some [] := by decide
example : stored log n1 0 = none := by decide
example : stored log n1 FileKind.parent = some (parentFile n2) := by decide
example : rollupOf n1 log = some n2 := by decide
example : (2 : FileKind) ≠ FileKind.rollup ∧
    FileName.kind "predicate_dictionary_blocks.tfc" = .ok 2 := by decide

end ArchiveExample

end Verif
