import Verif.Model.ArchiveDir
import Verif.Lemmas.Construction
import Verif.Lemmas.Sort
import Mathlib.Order.Fin.Basic
import Mathlib.Data.List.FinRange
import Mathlib.Data.List.Nodup

namespace Verif

theorem getU64_putU64 (n : Nat) (r : Bytes) (h : n < 2 ^ 64) :
    getU64 (putU64 n ++ r) = some (n, r) := by
  simp only [putU64, List.cons_append, List.nil_append, getU64, Option.some.injEq, Prod.mk.injEq,
    and_true]
  omega

theorem readExact_append (a r : Bytes) : readExact a.length (a ++ r) = some (a, r) := by
  simp [readExact]

/-! ### Presence -/

theorem Presence.fold_lt (ks : List FileKind) (v : Nat) (hv : v < 2 ^ 64) :
    ks.foldl (fun v k => v ||| 1 <<< (64 - k.val - 1)) v < 2 ^ 64 := by
  induction ks generalizing v with
  | nil => exact hv
  | cons k ks ih =>
    refine ih _ (Nat.or_lt_two_pow hv ?_)
    rw [Nat.one_shiftLeft]
    exact Nat.pow_lt_pow_right (by decide) (by omega)

theorem Presence.fold_testBit (ks : List FileKind) (v : Nat) (j : Nat) :
    (ks.foldl (fun v k => v ||| 1 <<< (64 - k.val - 1)) v).testBit j =
      (v.testBit j || ks.any (fun k => decide (64 - k.val - 1 = j))) := by
  induction ks generalizing v with
  | nil => simp
  | cons k ks ih =>
    rw [List.foldl_cons, ih, Nat.testBit_or, Nat.one_shiftLeft, Nat.testBit_two_pow,
      List.any_cons, Bool.or_assoc]

theorem Presence.isPresent_iff (ks : List FileKind) (j : Nat) (hj : j < 64) :
    isPresent (fromPresent ks) j = true ↔ ∃ k ∈ ks, k.val = j := by
  unfold isPresent fromPresent
  rw [Presence.fold_testBit]
  simp only [Nat.zero_testBit, Bool.false_or, List.any_eq_true, decide_eq_true_eq]
  constructor
  · rintro ⟨k, hk, e⟩; exact ⟨k, hk, by have := k.isLt; omega⟩
  · rintro ⟨k, hk, e⟩; exact ⟨k, hk, by have := k.isLt; omega⟩

theorem Presence.rank1_spec (pre post : List FileKind) (k : FileKind)
    (h : (pre ++ k :: post).Pairwise (· < ·)) :
    rank1 (fromPresent (pre ++ k :: post)) k = pre.length + 1 := by
  unfold rank1
  have : (List.range (k.val + 1)).filter (isPresent (fromPresent (pre ++ k :: post))) =
      (pre ++ [k]).map Fin.val := by
    have hs1 : SortedLt ((List.range (k.val + 1)).filter
        (isPresent (fromPresent (pre ++ k :: post)))) :=
      List.Pairwise.filter _ List.pairwise_lt_range
    have hs2 : SortedLt ((pre ++ [k]).map Fin.val) := by
      unfold SortedLt
      rw [List.pairwise_map]
      have : List.Sublist (pre ++ [k]) (pre ++ k :: post) := by
        apply List.Sublist.append_left; simp
      exact (h.sublist this).imp (fun hab => hab)
    apply SortedLt.ext hs1 hs2
    intro j
    simp only [List.mem_filter, List.mem_range, List.mem_map]
    rw [List.pairwise_append] at h
    obtain ⟨h1, h2, h3⟩ := h
    rw [List.pairwise_cons] at h2
    constructor
    · rintro ⟨hj, hp⟩
      obtain ⟨a, ha, rfl⟩ := (Presence.isPresent_iff _ j (by have := k.isLt; omega)).mp hp
      refine ⟨a, ?_, rfl⟩
      rcases List.mem_append.mp ha with ha | ha
      · exact List.mem_append_left _ ha
      · rcases List.mem_cons.mp ha with ha | ha
        · simp [ha]
        · have := h2.1 a ha
          have : k.val < a.val := this
          omega
    · rintro ⟨a, ha, rfl⟩
      have hle : a.val ≤ k.val := by
        rcases List.mem_append.mp ha with ha | ha
        · exact Nat.le_of_lt (h3 a ha k (by simp))
        · simp at ha; subst ha; exact Nat.le_refl _
      refine ⟨by omega, (Presence.isPresent_iff _ _ (by have := a.isLt; omega)).mpr ⟨a, ?_, rfl⟩⟩
      rcases List.mem_append.mp ha with ha | ha
      · exact List.mem_append_left _ ha
      · simp at ha; subst ha; simp
  rw [this]; simp

/-! ### Sorting -/

namespace Archive

theorem insertFile_perm (q : FileKind × Bytes) (l : List (FileKind × Bytes)) :
    (insertFile q l).Perm (q :: l) := by
  induction l with
  | nil => exact List.Perm.refl _
  | cons r l ih =>
    unfold insertFile
    split
    · exact List.Perm.refl _
    · exact (List.Perm.cons r ih).trans (List.Perm.swap q r l)

theorem sortFiles_perm (l : List (FileKind × Bytes)) : (sortFiles l).Perm l := by
  induction l with
  | nil => exact List.Perm.refl _
  | cons q l ih => exact (insertFile_perm q _).trans (List.Perm.cons q ih)

theorem insertFile_sorted {q : FileKind × Bytes} {l : List (FileKind × Bytes)}
    (h : l.Pairwise (fun a b => a.1 ≤ b.1)) : (insertFile q l).Pairwise (fun a b => a.1 ≤ b.1) := by
  induction l with
  | nil => simp [insertFile]
  | cons r l ih =>
    rw [List.pairwise_cons] at h
    unfold insertFile
    split
    · rename_i hle
      refine List.pairwise_cons.mpr ⟨?_, List.pairwise_cons.mpr h⟩
      intro x hx
      rcases List.mem_cons.mp hx with rfl | hx
      · exact hle
      · exact le_trans hle (h.1 x hx)
    · rename_i hle
      refine List.pairwise_cons.mpr ⟨?_, ih h.2⟩
      intro x hx
      rcases List.mem_cons.mp ((insertFile_perm q l).mem_iff.mp hx) with rfl | hx
      · exact le_of_lt (not_le.mp hle)
      · exact h.1 x hx

theorem sortFiles_sorted (l : List (FileKind × Bytes)) :
    (sortFiles l).Pairwise (fun a b => a.1 ≤ b.1) := by
  induction l with
  | nil => simp [sortFiles]
  | cons q l ih => exact insertFile_sorted ih

theorem sortFiles_keys {l : List (FileKind × Bytes)} (h : (l.map (·.1)).Nodup) :
    ((sortFiles l).map (·.1)).Pairwise (· < ·) := by
  have h1 : ((sortFiles l).map (·.1)).Pairwise (· ≤ ·) := List.pairwise_map.mpr (sortFiles_sorted l)
  have h2 : ((sortFiles l).map (·.1)).Nodup := ((sortFiles_perm l).map _).nodup_iff.mpr h
  exact sortedLt_of_le_nodup h1 h2

/-! ### Ends -/

theorem ends_length (t : Nat) (ds : List Bytes) : (ends t ds).length = ds.length := by
  induction ds generalizing t with
  | nil => rfl
  | cons d ds ih => simp [ends, ih]

theorem ends_bound (t : Nat) (ds : List Bytes) : ∀ x ∈ ends t ds, x ≤ t + ds.flatten.length := by
  induction ds generalizing t with
  | nil => intro x hx; cases hx
  | cons d ds ih =>
    intro x hx
    rcases List.mem_cons.mp hx with rfl | hx
    · simp
    · have := ih _ x hx; simp at *; omega

theorem ends_get (t : Nat) (pre post : List Bytes) (d : Bytes) :
    (ends t (pre ++ d :: post))[pre.length]? = some (t + pre.flatten.length + d.length) := by
  induction pre generalizing t with
  | nil => simp [ends]
  | cons e pre ih => simp [ends, ih]; omega

end Archive

/-! ### The header of a written archive -/

namespace Archive

/-- Files that can be written: no kind twice, and the sizes can be counted. -/
def Writable (files : List (FileKind × Bytes)) : Prop :=
  (files.map (·.1)).Nodup ∧ (files.map (·.2)).flatten.length < 2 ^ 64

/-- The header that is written. -/
def header (files : List (FileKind × Bytes)) : ArchiveHeader :=
  ⟨Presence.fromPresent ((sortFiles files).map (·.1)), ends 0 ((sortFiles files).map (·.2))⟩

/-- The data that is written. -/
def data (files : List (FileKind × Bytes)) : Bytes := ((sortFiles files).map (·.2)).flatten

theorem data_length (files : List (FileKind × Bytes)) :
    (data files).length = (files.map (·.2)).flatten.length := by
  unfold data
  exact (((sortFiles_perm files).map (·.2)).flatten).length_eq

theorem ends_ok {files : List (FileKind × Bytes)} (h : Writable files) :
    (ends 0 ((sortFiles files).map (·.2))).length ≤ 50 ∧
    ∀ x ∈ ends 0 ((sortFiles files).map (·.2)), x < 2 ^ 64 := by
  constructor
  · rw [ends_length, List.length_map, (sortFiles_perm files).length_eq, ← List.length_map (·.1)]
    have := (List.subperm_of_subset (l₂ := List.finRange 50) h.1
      (fun x _ => List.mem_finRange x)).length_le
    simpa using this
  · intro x hx
    have := ends_bound _ _ x hx
    have e := data_length files
    unfold data at e
    have := h.2
    omega

theorem encode_getU64 (c : OffsetCodec) (files : List (FileKind × Bytes)) :
    getU64 (encode c files) = some ((header files).presence,
      c.enc (header files).offsets ++ data files) := by
  unfold encode
  rw [List.append_assoc, getU64_putU64 _ _ (show Presence.fromPresent _ < _ from Presence.fold_lt _ _ (by decide))]
  rfl

theorem parse_encode (c : OffsetCodec) {files : List (FileKind × Bytes)} (h : Writable files) :
    ArchiveHeader.parse c (encode c files) = .ok (header files, data files) := by
  unfold ArchiveHeader.parse
  rw [encode_getU64]
  show (Out.ofOption (c.dec _)).bind _ = _
  rw [header, c.dec_enc _ _ (ends_ok h).1 (ends_ok h).2]
  rfl

theorem parseFromReader_encode (c : OffsetCodec) {files : List (FileKind × Bytes)}
    (h : Writable files) :
    ArchiveHeader.parseFromReader c (encode c files) = .ok (header files, data files) := by
  have h8 := c.eight _ (ends_ok h).1 (ends_ok h).2
  have hb := c.bodyLen_enc _ (ends_ok h).1 (ends_ok h).2
  have hd := c.dec_enc _ [] (ends_ok h).1 (ends_ok h).2
  unfold ArchiveHeader.parseFromReader
  rw [encode_getU64]
  generalize hx : c.enc (ends 0 ((sortFiles files).map (·.2))) = x at *
  have e1 : readExact 8 (x ++ data files) = some (x.take 8, x.drop 8 ++ data files) := by
    have := readExact_append (x.take 8) (x.drop 8 ++ data files)
    rw [← List.append_assoc, List.take_append_drop, List.length_take, min_eq_left h8] at this
    exact this
  have e2 : readExact (c.bodyLen (x.take 8)) (x.drop 8 ++ data files) =
      some (x.drop 8, data files) := by
    have := readExact_append (x.drop 8) (data files)
    rw [List.length_drop, ← hb] at this
    exact this
  show ((ArchiveHeader.orErr (readExact 8 (c.enc (header files).offsets ++ data files))).bind _) = _
  rw [show c.enc (header files).offsets = x from hx, e1]
  show ((ArchiveHeader.orErr (readExact (c.bodyLen (x.take 8)) (x.drop 8 ++ data files))).bind _) = _
  rw [e2]
  show ((Out.ofOption (c.dec (x.take 8 ++ x.drop 8))).bind _) = _
  rw [List.take_append_drop]
  rw [List.append_nil] at hd
  rw [hd]
  rfl

/-- A file that is not there has no range. -/
theorem rangeFor_none {files : List (FileKind × Bytes)} {k : FileKind}
    (hk : ∀ b, (k, b) ∉ files) : (header files).rangeFor k = .ok none := by
  have : Presence.isPresent (header files).presence k = false := by
    cases e : Presence.isPresent (header files).presence k with
    | false => rfl
    | true =>
      obtain ⟨a, ha, he⟩ := (Presence.isPresent_iff _ _ (by have := k.isLt; omega)).mp e
      obtain ⟨q, hq, rfl⟩ := List.mem_map.mp ha
      have hq' := (sortFiles_perm files).mem_iff.mp hq
      have : q.1 = k := Fin.ext he
      exact absurd (by rw [← this]; exact hq') (hk q.2)
  unfold ArchiveHeader.rangeFor Presence.fileIndex
  rw [this]
  rfl

/-- The range of a file: where its contents are in the data. -/
theorem rangeFor_some {files : List (FileKind × Bytes)} (h : Writable files) {k : FileKind}
    {b : Bytes} (hk : (k, b) ∈ files) :
    ∃ s r, (header files).rangeFor k = .ok (some (s, s + b.length)) ∧
      (data files).drop s = b ++ r ∧ s + b.length ≤ (data files).length ∧
      Presence.isPresent (header files).presence k = true := by
  have hm := (sortFiles_perm files).mem_iff.mpr hk
  obtain ⟨pre, post, e⟩ := List.append_of_mem hm
  have hs := sortFiles_keys h.1
  have hp : Presence.isPresent (header files).presence k = true :=
    (Presence.isPresent_iff _ _ (by have := k.isLt; omega)).mpr ⟨k, by simp [e], rfl⟩
  have hd : data files = (pre.map (·.2)).flatten ++ (b ++ (post.map (·.2)).flatten) := by
    unfold data; rw [e]; simp
  refine ⟨((pre.map (·.2)).flatten).length, (post.map (·.2)).flatten, ?_, ?_, ?_, hp⟩
  · unfold ArchiveHeader.rangeFor Presence.fileIndex
    rw [hp]
    have hr : Presence.rank1 (header files).presence k = pre.length + 1 := by
      unfold header
      rw [e] at hs ⊢
      simp only [List.map_append, List.map_cons] at hs ⊢
      rw [Presence.rank1_spec _ _ _ hs, List.length_map]
    rw [hr]
    have ho : (header files).offsets = ends 0 (pre.map (·.2) ++ b :: post.map (·.2)) := by
      unfold header; rw [e]; simp
    have e2 : (header files).entry pre.length = .ok (((pre.map (·.2)).flatten).length + b.length) := by
      unfold ArchiveHeader.entry
      rw [ho]
      have := ends_get 0 (pre.map (·.2)) (post.map (·.2)) b
      rw [List.length_map] at this
      rw [this, Nat.zero_add]
      rfl
    have e1 : (header files).start pre.length = Out.ok ((pre.map (·.2)).flatten).length := by
      unfold ArchiveHeader.start
      cases hpre : pre.reverse with
      | nil => have : pre = [] := by simpa using hpre
               subst this; rfl
      | cons q p' =>
        have hq : pre = p'.reverse ++ [q] := by
          have := congrArg List.reverse hpre; simpa using this
        have hne : pre.length ≠ 0 := by rw [hq]; simp
        rw [if_neg hne]
        unfold ArchiveHeader.entry
        rw [ho, hq]
        have := ends_get 0 (p'.reverse.map (·.2)) (b :: post.map (·.2)) q.2
        simp only [List.length_map] at this
        simp only [List.map_append, List.map_cons, List.map_nil, List.append_assoc,
          List.cons_append, List.nil_append, List.length_append, List.length_cons, List.length_nil,
          Nat.zero_add, Nat.add_sub_cancel]
        rw [this]
        simp [Out.ofOption]
    show (Out.bind ((header files).start pre.length)
      (fun s => Out.bind ((header files).entry pre.length) fun e => Out.ok (some (s, e)))) = _
    rw [e1]
    show Out.bind ((header files).entry pre.length) _ = _
    rw [e2]
    rfl
  · rw [hd]; simp
  · rw [hd]; simp

end Archive

end Verif
