import Verif.Lemmas.Archive

namespace Verif

open FileSpec

/-! ### Reading a slice -/

theorem SliceReader.follows {r : SliceReader} {tr : List (Nat × Bytes)} (h : r.Reads tr)
    {content : Bytes} (hl : content.length = r.remaining) (hc : ∃ t, r.rest = content ++ t) :
    Follows content tr := by
  induction h generalizing content with
  | nil => exact Follows.nil _
  | @cons r cap got tr hg _ ih =>
    obtain ⟨rest, remaining⟩ := r
    obtain ⟨t, ht⟩ := hc
    simp only at hl ht
    subst ht
    obtain ⟨hg1, hg2, hg3⟩ := hg
    simp only at hg2 hg3
    by_cases h0 : remaining = 0
    · have hr : SliceReader.read ⟨content ++ t, remaining⟩ got = ([], ⟨content ++ t, remaining⟩) := by
        unfold SliceReader.read; rw [if_pos h0]
      rw [hr] at ih ⊢
      have hcn : content = [] := List.length_eq_zero_iff.mp (by omega)
      exact Follows.cons (rest := content) rfl (by simp) (fun _ => Or.inr hcn) (ih hl ⟨t, rfl⟩)
    · by_cases hgt : ((content ++ t).take got).length > remaining
      · have hr : SliceReader.read ⟨content ++ t, remaining⟩ got =
            (((content ++ t).take got).take remaining, ⟨(content ++ t).drop got, 0⟩) := by
          unfold SliceReader.read; simp only [if_neg h0, if_pos hgt]
        rw [hr] at ih ⊢
        have hlen : ((content ++ t).take got).length = got := by
          rw [List.length_take]; omega
        have e : ((content ++ t).take got).take remaining = content := by
          rw [List.take_take, min_eq_left (by omega), ← hl, List.take_left]
        simp only [e]
        refine Follows.cons (rest := []) (by simp) (by omega) (fun he => Or.inr he)
          (ih rfl ⟨_, rfl⟩)
      · have hr : SliceReader.read ⟨content ++ t, remaining⟩ got =
            ((content ++ t).take got, ⟨(content ++ t).drop got,
              remaining - ((content ++ t).take got).length⟩) := by
          unfold SliceReader.read; simp only [if_neg h0, if_neg hgt]
        rw [hr] at ih ⊢
        have hlen : ((content ++ t).take got).length = got := by
          rw [List.length_take]; omega
        have hge : got ≤ content.length := by omega
        have e1 : (content ++ t).take got = content.take got := List.take_append_of_le_length hge
        have e2 : (content ++ t).drop got = content.drop got ++ t := List.drop_append_of_le_length hge
        simp only [e1, e2] at ih ⊢
        refine Follows.cons (rest := content.drop got) (by simp) (by simp; omega) ?_
          (ih (by simp; omega) ⟨t, rfl⟩)
        intro he
        rcases List.take_eq_nil_iff.mp he with h' | h'
        · rcases hg3 h' with h'' | h''
          · exact Or.inl h''
          · right; simp at h''; exact h''.1
        · exact Or.inr h'

/-! ### Reading a stored layer -/

namespace ArchDir

variable {c : OffsetCodec} {d : ArchDir} {n : LayerName} {files : List (FileKind × Bytes)}

theorem open_eq (hf : d.file n = some (Archive.encode c files)) :
    d.open n = .ok (Archive.encode c files) := by
  unfold ArchDir.open; rw [hf]; rfl

theorem getStructureBytes_none (hw : Archive.Writable files)
    (hf : d.file n = some (Archive.encode c files)) {k : FileKind} (hk : ∀ b, (k, b) ∉ files) :
    d.getStructureBytes c n k = .ok none := by
  unfold getStructureBytes
  rw [open_eq hf]
  show (ArchiveHeader.parseFromReader c (Archive.encode c files)).bind _ = _
  rw [Archive.parseFromReader_encode c hw]
  show ((Archive.header files).rangeFor k).bind _ = _
  rw [Archive.rangeFor_none hk]
  rfl

theorem getStructureBytes_some (hw : Archive.Writable files)
    (hf : d.file n = some (Archive.encode c files)) {k : FileKind} {b : Bytes} (hk : (k, b) ∈ files) :
    d.getStructureBytes c n k = .ok (some b) := by
  obtain ⟨s, r, h1, h2, h3, -⟩ := Archive.rangeFor_some hw hk
  unfold getStructureBytes
  rw [open_eq hf]
  show (ArchiveHeader.parseFromReader c (Archive.encode c files)).bind _ = _
  rw [Archive.parseFromReader_encode c hw]
  show ((Archive.header files).rangeFor k).bind _ = _
  rw [h1]
  show (ArchiveHeader.orErr (readExact (s + b.length - s) ((Archive.data files).drop s))).bind _ = _
  rw [h2, Nat.add_sub_cancel_left, readExact_append]
  rfl

theorem readFrom_some (hw : Archive.Writable files)
    (hf : d.file n = some (Archive.encode c files)) {k : FileKind} {b : Bytes} (hk : (k, b) ∈ files)
    {off : Nat} (ho : off ≤ b.length) :
    ∃ r, d.readFrom c n k off = .ok r ∧ r.remaining = b.length - off ∧
      ∃ t, r.rest = b.drop off ++ t := by
  obtain ⟨s, r, h1, h2, h3, -⟩ := Archive.rangeFor_some hw hk
  refine ⟨⟨(Archive.data files).drop (s + off), b.length - off⟩, ?_, rfl, r, ?_⟩
  · unfold readFrom
    rw [open_eq hf]
    show (ArchiveHeader.parseFromReader c (Archive.encode c files)).bind _ = _
    rw [Archive.parseFromReader_encode c hw]
    show ((Archive.header files).rangeFor k).bind _ = _
    rw [h1]
    show (if s + b.length - s < off then Out.panic else Out.ok _) = _
    rw [Nat.add_sub_cancel_left, if_neg (by omega)]
  · show (Archive.data files).drop (s + off) = _
    rw [← List.drop_drop, h2, List.drop_append_of_le_length ho]

theorem readFrom_past (hw : Archive.Writable files)
    (hf : d.file n = some (Archive.encode c files)) {k : FileKind} {b : Bytes} (hk : (k, b) ∈ files)
    {off : Nat} (ho : b.length < off) : d.readFrom c n k off = .panic := by
  obtain ⟨s, r, h1, -⟩ := Archive.rangeFor_some hw hk
  unfold readFrom
  rw [open_eq hf]
  show (ArchiveHeader.parseFromReader c (Archive.encode c files)).bind _ = _
  rw [Archive.parseFromReader_encode c hw]
  show ((Archive.header files).rangeFor k).bind _ = _
  rw [h1]
  show (if s + b.length - s < off then Out.panic else Out.ok _) = _
  rw [Nat.add_sub_cancel_left, if_pos ho]

theorem readFrom_none (hw : Archive.Writable files)
    (hf : d.file n = some (Archive.encode c files)) {k : FileKind} (hk : ∀ b, (k, b) ∉ files)
    (off : Nat) : d.readFrom c n k off = .err := by
  unfold readFrom
  rw [open_eq hf]
  show (ArchiveHeader.parseFromReader c (Archive.encode c files)).bind _ = _
  rw [Archive.parseFromReader_encode c hw]
  show ((Archive.header files).rangeFor k).bind _ = _
  rw [Archive.rangeFor_none hk]
  rfl

theorem getStructureSize_some (hw : Archive.Writable files)
    (hf : d.file n = some (Archive.encode c files)) {k : FileKind} {b : Bytes} (hk : (k, b) ∈ files) :
    d.getStructureSize c n k = .ok b.length := by
  obtain ⟨s, r, h1, h2, h3, -⟩ := Archive.rangeFor_some hw hk
  unfold getStructureSize
  rw [open_eq hf]
  show (ArchiveHeader.parseFromReader c (Archive.encode c files)).bind _ = _
  rw [Archive.parseFromReader_encode c hw]
  have : (Archive.header files).sizeOf k = .ok (some b.length) := by
    unfold ArchiveHeader.sizeOf
    rw [h1]
    show (if s + b.length < s then Out.panic else Out.ok (some (s + b.length - s))) = _
    rw [if_neg (by omega), Nat.add_sub_cancel_left]
  show ((Archive.header files).sizeOf k).bind _ = _
  rw [this]
  rfl

theorem getStructureSize_none (hw : Archive.Writable files)
    (hf : d.file n = some (Archive.encode c files)) {k : FileKind} (hk : ∀ b, (k, b) ∉ files) :
    d.getStructureSize c n k = .err := by
  unfold getStructureSize
  rw [open_eq hf]
  show (ArchiveHeader.parseFromReader c (Archive.encode c files)).bind _ = _
  rw [Archive.parseFromReader_encode c hw]
  have : (Archive.header files).sizeOf k = .ok none := by
    unfold ArchiveHeader.sizeOf
    rw [Archive.rangeFor_none hk]
    rfl
  show ((Archive.header files).sizeOf k).bind _ = _
  rw [this]
  rfl

theorem layerFileExists_eq (hw : Archive.Writable files)
    (hf : d.file n = some (Archive.encode c files)) (k : FileKind) :
    ∃ b, d.layerFileExists n k = .ok b ∧ (b = true ↔ ∃ x, (k, x) ∈ files) := by
  unfold layerFileExists
  rw [hf]
  refine ⟨Presence.isPresent (Archive.header files).presence k, ?_, ?_⟩
  · show (ArchiveHeader.orErr (getU64 (Archive.encode c files))).bind _ = _
    rw [Archive.encode_getU64]
    rfl
  · constructor
    · intro hp
      obtain ⟨a, ha, he⟩ := (Presence.isPresent_iff _ _ (by have := k.isLt; omega)).mp hp
      obtain ⟨q, hq, rfl⟩ := List.mem_map.mp ha
      have hq' := (Archive.sortFiles_perm files).mem_iff.mp hq
      have : q.1 = k := Fin.ext he
      exact ⟨q.2, by rw [← this]; exact hq'⟩
    · rintro ⟨x, hx⟩
      exact (Archive.rangeFor_some hw hx).choose_spec.choose_spec.2.2.2

end ArchDir

end Verif
