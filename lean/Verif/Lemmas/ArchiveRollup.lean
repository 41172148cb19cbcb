import Verif.Lemmas.ArchiveRun
import Verif.Lemmas.Text

namespace Verif

open FileSpec

/-! ### A code for arrays of offsets -/

/-- Some numbers of eight bytes each. -/
def getMany : Nat → Bytes → Option (List Nat × Bytes)
  | 0, b => some ([], b)
  | n + 1, b =>
    match getU64 b with
    | none => none
    | some (x, r) =>
      match getMany n r with
      | none => none
      | some (xs, r') => some (x :: xs, r')

theorem getMany_put (xs : List Nat) (r : Bytes) (h : ∀ x ∈ xs, x < 2 ^ 64) :
    getMany xs.length ((xs.map putU64).flatten ++ r) = some (xs, r) := by
  induction xs with
  | nil => rfl
  | cons x xs ih =>
    have hx := h x List.mem_cons_self
    show getMany (xs.length + 1) _ = _
    rw [List.map_cons, List.flatten_cons, List.append_assoc]
    unfold getMany
    rw [getU64_putU64 x _ hx]
    simp only
    rw [ih (fun y hy => h y (List.mem_cons_of_mem _ hy))]

theorem putMany_length (xs : List Nat) : ((xs.map putU64).flatten).length = 8 * xs.length := by
  induction xs with
  | nil => rfl
  | cons x xs ih =>
    rw [List.map_cons, List.flatten_cons, List.length_append, ih, List.length_cons]
    show 8 + _ = _
    omega

/-- A code as `OffsetCodec` asks for: the number of entries and the entries, eight bytes
each. -/
def OffsetCodec.plain : OffsetCodec where
  enc xs := putU64 xs.length ++ (xs.map putU64).flatten
  dec b :=
    match getU64 b with
    | none => none
    | some (n, r) => getMany n r
  bodyLen w :=
    match getU64 w with
    | none => 0
    | some (n, _) => 8 * n
  dec_enc xs r hl hx := by
    rw [List.append_assoc, getU64_putU64 _ _ (by omega)]
    exact getMany_put xs r hx
  eight xs hl hx := by
    rw [List.length_append]; show 8 ≤ 8 + _; omega
  bodyLen_enc xs hl hx := by
    have : (putU64 xs.length ++ (xs.map putU64).flatten).take 8 = putU64 xs.length := by
      exact List.take_left' rfl
    rw [this]
    have := getU64_putU64 xs.length [] (by omega)
    rw [List.append_nil] at this
    rw [this, List.length_append, putMany_length]
    show 8 * xs.length = 8 + _ - 8
    omega

namespace ArchStore

/-! ### Finalized once -/

theorem Step.final_kept {c : OffsetCodec} {s s' : ArchStore} {L L' : List ArchEvent}
    (hi : Inv c s L) (h : Step c s L s' L') {n : LayerName} (hn : (beforeFinal n L).isSome) :
    beforeFinal n L' = beforeFinal n L := by
  cases h with
  | finalize hw =>
    rename_i n'
    apply beforeFinal_mute
    intro e
    subst e
    unfold ArchStore.finalize at hw
    cases hb : s.building n' with
    | none => rw [hb] at hw; cases hw
    | some m => rw [(hi.fresh n' m hb).1] at hn; cases hn
  | _ => rfl

theorem Inv.is_stored {c : OffsetCodec} {s : ArchStore} {L : List ArchEvent} (hi : Inv c s L)
    {n : LayerName} (hn : (beforeFinal n L).isSome) : ∃ files,
    s.building n = none ∧ s.disk.file n = some (Archive.encode c files) ∧ Archive.Writable files ∧
      ∀ k x, (k, x) ∈ files ↔ FileSpec.stored L n k = some x := by
  cases hb : s.building n with
  | some m => rw [(hi.fresh n m hb).1] at hn; cases hn
  | none =>
    cases hd : s.disk.file n with
    | none => rw [(hi.absent n hb hd).1] at hn; cases hn
    | some b =>
      obtain ⟨-, -, files, rfl, h1, h2⟩ := hi.stored n b hd
      exact ⟨files, rfl, rfl, h1, h2⟩

/-! ### Rollups -/

/-- Rollup files are those that were registered. -/
structure Rolled (s : ArchStore) (L : List ArchEvent) : Prop where
  files : ∀ n, s.disk.rollups.lookup n =
    (rollupOf n L).map (fun r => [49, 10] ++ nameToString r ++ [10])
  layer : ∀ n, (rollupOf n L).isSome → (s.disk.file n).isSome

theorem lines_rollup (r : LayerName) :
    Text.lines (utf8Lossy ([49, 10] ++ nameToString r ++ [10])) = [[49], nameToString r] := by
  rw [utf8Lossy_ascii]
  · have : [49, 10] ++ nameToString r ++ [10] = [49] ++ [10] ++ nameToString r ++ [10] := by simp
    rw [this, Text.lines_two]
    · intro c hc
      simp at hc; omega
    · intro c hc
      obtain ⟨d, hd, rfl⟩ := nameToString_mem hc
      exact ⟨(digitChar_ne d hd).1, (digitChar_ne d hd).2.1⟩
  · intro c hc
    simp only [List.mem_append, List.mem_cons, List.not_mem_nil, or_false] at hc
    rcases hc with (h | h) | h
    · omega
    · exact nameToString_ascii c h
    · omega

theorem getRollup_of {d : ArchDir} {n r : LayerName} (hf : (d.file n).isSome)
    (hr : d.rollups.lookup n = some ([49, 10] ++ nameToString r ++ [10])) :
    d.getRollup n = .ok (some r) := by
  unfold ArchDir.getRollup
  cases h : d.file n with
  | none => rw [h] at hf; cases hf
  | some b =>
    simp only [hr]
    have h1 : ArchDir.secondLine (utf8Lossy ([49, 10] ++ nameToString r ++ [10])) =
        .ok (nameToString r) := by
      unfold ArchDir.secondLine
      rw [lines_rollup]
      rfl
    rw [h1]
    have h2 := stringToName_nameToString r
    generalize nameToString r = t at h2
    show (stringToName t).bind _ = _
    rw [h2]
    rfl

theorem setRollup_ok {d d' : ArchDir} {n r : LayerName} (h : d.setRollup n r = .ok d') :
    (d.file n).isSome ∧
      d' = { d with rollups := (n, [49, 10] ++ nameToString r ++ [10]) :: d.rollups } := by
  unfold ArchDir.setRollup at h
  split at h
  · cases h
  · rename_i hf; cases h; exact ⟨by rw [hf]; rfl, rfl⟩

theorem writeSync_ok {d d' : ArchDir} {n : LayerName} {data : Bytes}
    (h : RollupFile.writeSync d n data = .ok d') : ∃ r, d.setRollup n r = .ok d' := by
  unfold RollupFile.writeSync at h
  cases h1 : ArchDir.secondLine (utf8Lossy data) with
  | ok l =>
    rw [h1] at h
    replace h : (stringToName l).bind _ = _ := h
    cases h2 : stringToName l with
    | ok q => rw [h2] at h; exact ⟨q, h⟩
    | err => rw [h2] at h; cases h
    | panic => rw [h2] at h; cases h
  | err => rw [h1] at h; cases h
  | panic => rw [h1] at h; cases h

/-- Other steps than registering leave the rollups. -/
theorem Rolled.other {s s' : ArchStore} {L L' : List ArchEvent} (hr : Rolled s L)
    (h1 : s'.disk.rollups = s.disk.rollups)
    (h2 : ∀ n, (s.disk.file n).isSome → (s'.disk.file n).isSome)
    (h3 : ∀ n, rollupOf n L' = rollupOf n L) : Rolled s' L' :=
  ⟨fun n => by rw [h1, h3]; exact hr.files n, fun n h => h2 n (hr.layer n (by rw [← h3]; exact h))⟩

theorem getFile_disk {s s' : ArchStore} {n : LayerName} {f : FileName} {h : ArchHandle}
    (hg : s.getFile n f = .ok (h, s')) : s'.disk = s.disk := by
  unfold getFile at hg
  cases hk : f.kind with
  | err => rw [hk] at hg; cases hg
  | panic => rw [hk] at hg; cases hg
  | ok k =>
    rw [hk] at hg
    replace hg : (if k = FileKind.rollup then Out.ok (ArchHandle.rollup n, s) else _) = _ := hg
    split at hg
    · cases hg; rfl
    · split at hg
      · cases hg; rfl
      · split at hg
        · cases hg; rfl
        · cases hg; rfl

theorem Rolled.step {c : OffsetCodec} {s s' : ArchStore} {L L' : List ArchEvent} (hr : Rolled s L)
    (h : Step c s L s' L') : Rolled s' L' := by
  cases h with
  | create hc =>
    unfold createNamed at hc
    split at hc
    · cases hc
    · split at hc
      · cases hc
      · cases hc; exact hr.other rfl (fun _ h => h) (fun _ => rfl)
  | getNew _ hg => 
    exact hr.other (by rw [getFile_disk hg])
      (fun _ h => by rw [getFile_disk hg]; exact h) (fun _ => rfl)
  | getOld hg _ => 
    exact hr.other (by rw [getFile_disk hg])
      (fun _ h => by rw [getFile_disk hg]; exact h) (fun _ => rfl)
  | writeBytes hw =>
    unfold ArchStore.writeBytes at hw
    split at hw
    · cases hw
    · split at hw
      · cases hw
      · cases hw; exact hr.other rfl (fun _ h => h) (fun _ => rfl)
  | write hw =>
    unfold handleWrite at hw
    split at hw
    · cases hw
    · split at hw
      · cases hw; exact hr.other rfl (fun _ h => h) (fun _ => rfl)
      · cases hw
      · cases hw
  | sync hw =>
    unfold handleSync at hw
    split at hw
    · cases hw
    · split at hw
      · cases hw; exact hr.other rfl (fun _ h => h) (fun _ => rfl)
      · cases hw
      · cases hw
  | finalize hw =>
    rename_i n
    unfold ArchStore.finalize at hw
    split at hw
    · cases hw
    · simp only at hw
      split at hw
      · cases hw
      · cases hw
        refine hr.other rfl (fun n' h => ?_) (fun _ => rfl)
        show ((s.disk.storeLayerFile n _).file n').isSome
        show (List.lookup n' (_ :: _)).isSome
        rw [List.lookup_cons]
        split
        · rfl
        · exact h
  | rollup hw hg =>
    rename_i d n r data
    obtain ⟨q, hq⟩ := writeSync_ok hw
    obtain ⟨hf, rfl⟩ := setRollup_ok hq
    have hq' := getRollup_of (d := { s.disk with
      rollups := (n, [49, 10] ++ nameToString q ++ [10]) :: s.disk.rollups }) (n := n) (r := q) hf
      (by simp)
    rw [hq'] at hg
    cases hg
    refine ⟨fun n' => ?_, fun n' h => ?_⟩
    · show List.lookup n' (_ :: _) = (if n = n' then some r else rollupOf n' L).map _
      rw [List.lookup_cons]
      by_cases e : n' = n
      · subst e; simp
      · have : (n' == n) = false := by simpa using e
        rw [this, if_neg (fun h => e h.symm)]
        exact hr.files n'
    · show (s.disk.file n').isSome
      replace h : (if n = n' then some r else rollupOf n' L).isSome := h
      by_cases e : n = n'
      · subst e; exact hf
      · rw [if_neg e] at h; exact hr.layer n' h

theorem Run.rolled {c : OffsetCodec} {s : ArchStore} {L : List ArchEvent} (h : Run c s L) :
    Rolled s L := by
  induction h with
  | start => exact ⟨fun n => rfl, fun n h => by cases h⟩
  | step _ hs ih => exact ih.step hs

end ArchStore

end Verif
