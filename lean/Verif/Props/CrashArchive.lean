import Verif.Model.CrashArchive
import Verif.Lemmas.ImportFrame
import Verif.Lemmas.CrashFiles
import Verif.Props.Archive

/-!
C52 for archive stores and for imports.
-/

namespace Verif

open PackSpec FileSpec

namespace ArchStore

/-! ### What a step changes -/

/-- A layer under construction is not on the disk. -/
def Apart (s : ArchStore) : Prop := ∀ n m, s.building n = some m → s.disk.file n = none

theorem building_nil (d : ArchDir) (n : LayerName) : ({ disk := d } : ArchStore).building n = none := rfl

theorem file_store (d : ArchDir) (m : LayerName) (b : Bytes) {n : LayerName} (h : n ≠ m) :
    (d.storeLayerFile m b).file n = d.file n := by
  show List.lookup n (_ :: _) = _
  rw [List.lookup_cons, beq_eq_false_iff_ne.mpr h]
  rfl

theorem getFile_same_disk {s s' : ArchStore} {n : LayerName} {f : FileName} {h : ArchHandle}
    (hg : s.getFile n f = .ok (h, s')) :
    s'.disk = s.disk ∧ ∀ m, s'.building m ≠ none → s.building m ≠ none := by
  unfold getFile at hg
  obtain ⟨k, _, hg⟩ := Out.of_bind_ok hg
  split at hg
  · cases hg; exact ⟨rfl, fun m h => h⟩
  · split at hg
    · cases hg; exact ⟨rfl, fun m h => h⟩
    · rename_i l hl
      split at hg
      · cases hg; exact ⟨rfl, fun m h => h⟩
      · cases hg
        refine ⟨rfl, fun m h => ?_⟩
        rw [building_set] at h
        split at h
        · rename_i e; rw [e, hl]; exact fun e => by cases e
        · exact h

theorem handleWrite_disk {s s' : ArchStore} {i m : Nat} {b : Bytes}
    (h : s.handleWrite i b = .ok (m, s')) : s'.disk = s.disk ∧ s'.constr = s.constr := by
  unfold handleWrite at h
  split at h
  · cases h
  · split at h
    · cases h; exact ⟨rfl, rfl⟩
    · cases h
    · cases h

theorem handleSync_disk {s s' : ArchStore} {i : Nat}
    (h : s.handleSync i = .ok s') : s'.disk = s.disk ∧ s'.constr = s.constr := by
  unfold handleSync at h
  split at h
  · cases h
  · split at h
    · cases h; exact ⟨rfl, rfl⟩
    · cases h
    · cases h

theorem finalize_eq {c : OffsetCodec} {s s' : ArchStore} {n : LayerName}
    (h : s.finalize c n = .ok s') : s.building n ≠ none ∧
      s'.disk = s.disk.storeLayerFile n (s.archiveOf c n) ∧
      ∀ m, s'.building m = if m = n then none else s.building m := by
  unfold finalize at h
  split at h
  · cases h
  · rename_i l hl
    dsimp only at h
    split at h
    · cases h
    · cases h
      refine ⟨(by rw [hl]; exact Option.some_ne_none _), ?_, fun m => lookup_filter_ne _ _ _⟩
      unfold archiveOf
      rw [hl]
      rfl

theorem setRollup_eq {d d' : ArchDir} {n r : LayerName} (h : d.setRollup n r = .ok d') :
    (d.file n).isSome = true ∧ d' = { d with rollups := (n, rollupBytes r) :: d.rollups } := by
  unfold ArchDir.setRollup at h
  split at h
  · cases h
  · rename_i hf
    cases h
    exact ⟨by rw [hf]; rfl, rfl⟩

/-- What a step does to the archives: it adds at most one, of a layer that was under
construction. -/
theorem CStep.disk {c : OffsetCodec} {s s' : ArchStore} {E : List Happening} (h : CStep c s E s') :
    (s'.disk.larch = s.disk.larch ∧
      ∀ m, s'.building m ≠ none → s.building m ≠ none ∨ s.disk.file m = none) ∨
    ∃ n b, s.building n ≠ none ∧ s'.disk = s.disk.storeLayerFile n b ∧
      ∀ m, s'.building m ≠ none → m ≠ n ∧ s.building m ≠ none := by
  cases h with
  | call h =>
    cases h with
    | create h =>
      obtain ⟨h1, rfl⟩ := create_fresh h
      refine Or.inl ⟨rfl, fun m hm => ?_⟩
      rw [building_set] at hm
      split at hm
      · rename_i e
        subst e
        right
        unfold directoryExists ArchDir.layerExists at h1
        simp only [Bool.or_eq_false_iff, Option.isSome_eq_false_iff, Option.isNone_iff_eq_none] at h1
        exact h1.2
      · exact Or.inl hm
    | getNew _ h =>
      obtain ⟨h1, h2⟩ := getFile_same_disk h
      exact Or.inl ⟨by rw [h1], fun m hm => Or.inl (h2 m hm)⟩
    | getOld h _ =>
      obtain ⟨h1, h2⟩ := getFile_same_disk h
      exact Or.inl ⟨by rw [h1], fun m hm => Or.inl (h2 m hm)⟩
    | writeBytes h =>
      unfold ArchStore.writeBytes at h
      split at h
      · cases h
      · rename_i l hl
        split at h
        · cases h
        · cases h
          refine Or.inl ⟨rfl, fun m hm => ?_⟩
          rw [building_set] at hm
          split at hm
          · rename_i e; rw [e, hl]; exact Or.inl (fun e => by cases e)
          · exact Or.inl hm
    | write h =>
      obtain ⟨h1, h2⟩ := handleWrite_disk h
      exact Or.inl ⟨by rw [h1], fun m hm => by unfold building at hm ⊢; rw [h2] at hm; exact Or.inl hm⟩
    | sync h =>
      obtain ⟨h1, h2⟩ := handleSync_disk h
      exact Or.inl ⟨by rw [h1], fun m hm => by unfold building at hm ⊢; rw [h2] at hm; exact Or.inl hm⟩
    | finalize h =>
      obtain ⟨h1, h2, h3⟩ := finalize_eq h
      refine Or.inr ⟨_, _, h1, h2, fun m hm => ?_⟩
      rw [h3] at hm
      split at hm
      · exact absurd rfl hm
      · rename_i e; exact ⟨e, hm⟩
    | rollup h _ =>
      obtain ⟨r, h⟩ := writeSync_ok h
      obtain ⟨_, rfl⟩ := setRollup_eq h
      exact Or.inl ⟨rfl, fun m hm => Or.inl hm⟩
  | crash => exact Or.inl ⟨rfl, fun m hm => absurd rfl hm⟩
  | cutArchive i h =>
    obtain ⟨h1, _, _⟩ := finalize_eq h
    exact Or.inr ⟨_, _, h1, rfl, fun m hm => absurd rfl hm⟩
  | cutRollup r i h => exact Or.inl ⟨rfl, fun m hm => absurd rfl hm⟩

theorem CStep.apart {c : OffsetCodec} {s s' : ArchStore} {E : List Happening} (ha : s.Apart)
    (h : CStep c s E s') :
    s'.Apart ∧ ∀ n, s.disk.file n ≠ none → s'.disk.file n = s.disk.file n := by
  have hne : ∀ m, s.building m ≠ none → s.disk.file m = none := fun m hm => by
    cases e : s.building m with
    | none => exact absurd e hm
    | some l => exact ha m l e
  rcases h.disk with ⟨h1, h2⟩ | ⟨k, b, h1, h2, h3⟩
  · have hf : ∀ m, s'.disk.file m = s.disk.file m := fun m => by unfold ArchDir.file; rw [h1]
    refine ⟨fun m l hm => ?_, fun n _ => hf n⟩
    rw [hf]
    rcases h2 m (by rw [hm]; exact fun e => by cases e) with h | h
    · exact hne m h
    · exact h
  · refine ⟨fun m l hm => ?_, fun n hn => ?_⟩
    · obtain ⟨h4, h5⟩ := h3 m (by rw [hm]; exact fun e => by cases e)
      rw [h2, file_store _ _ _ h4]
      exact hne m h5
    · rw [h2, file_store]
      rintro rfl
      exact hn (hne _ h1)

theorem CLater.apart {c : OffsetCodec} {s s' : ArchStore} {L : List Happening} (ha : s.Apart)
    (h : CLater c s L s') :
    s'.Apart ∧ ∀ n, s.disk.file n ≠ none → s'.disk.file n = s.disk.file n := by
  induction h with
  | now => exact ⟨ha, fun n _ => rfl⟩
  | step _ hs ih =>
    obtain ⟨h1, h2⟩ := hs.apart ih.1
    exact ⟨h1, fun n hn => by rw [h2 n (by rw [ih.2 n hn]; exact hn), ih.2 n hn]⟩

theorem apart_new : ({} : ArchStore).Apart := fun _ _ h => by cases h

/-! ### The files of a layer -/

theorem kind_rollup {f : FileName} (hf : f ≠ FileName.rollup) {k : FileKind}
    (hk : FileName.kind f = .ok k) : k ≠ FileKind.rollup := by
  rintro rfl
  unfold FileName.kind at hk
  cases hl : FileName.table.lookup f with
  | none => rw [hl] at hk; cases hk
  | some k =>
    rw [hl] at hk
    cases hk
    have h1 : ∀ q ∈ FileName.table, q.2 = FileKind.rollup → q.1 = FileName.rollup := by decide
    exact hf (h1 _ (lookup_mem hl) rfl)

theorem getFile_stored {s : ArchStore} {n : LayerName} {f : FileName} {k : FileKind}
    (hb : s.building n = none) (hk : FileName.kind f = .ok k) (hkr : k ≠ FileKind.rollup) :
    s.getFile n f = .ok (.persistent n k, s) := by
  unfold getFile
  rw [hk]
  show (if k = FileKind.rollup then _ else _) = _
  rw [if_neg hkr, hb]

theorem fileExists_stored {s : ArchStore} {n : LayerName} {f : FileName} {k : FileKind}
    (hb : s.building n = none) (hk : FileName.kind f = .ok k) (hkr : k ≠ FileKind.rollup) :
    s.fileExists n f = s.disk.layerFileExists n k := by
  unfold ArchStore.fileExists
  rw [hk]
  show (if k = FileKind.rollup then _ else _) = _
  rw [if_neg hkr, hb]

/-- C52 for archive stores: whatever is called afterwards, whenever the process stops and however
often it is started again, the files of a stored layer stay as they are, apart from the rollup
file, and so does its parent. -/
theorem C52_archive_files {c : OffsetCodec} {s s' : ArchStore} {L L' : List Happening}
    (h : CLater c {} L s) (hl : CLater c s L' s') {n : LayerName}
    (hn : s.disk.layerExists n = true) :
    s'.disk.layerExists n = true ∧ s'.directoryExists n = true ∧
    s'.layerParent c n = s.layerParent c n ∧
    ∀ f, f ≠ FileName.rollup → s'.fileExists n f = s.fileExists n f ∧
      s'.map c n f = s.map c n f ∧ s'.size c n f = s.size c n f := by
  have ha := (h.apart apart_new).1
  obtain ⟨ha', hk⟩ := hl.apart ha
  have hn0 : s.disk.file n ≠ none := by
    unfold ArchDir.layerExists at hn
    exact Option.isSome_iff_ne_none.mp hn
  have hf := hk n hn0
  have hb : s.building n = none := by
    cases e : s.building n with
    | none => rfl
    | some l => exact absurd (ha n l e) hn0
  have hb' : s'.building n = none := by
    cases e : s'.building n with
    | none => rfl
    | some l => exact absurd (ha' n l e) (by rw [hf]; exact hn0)
  have hopen : s'.disk.open n = s.disk.open n := by unfold ArchDir.open; rw [hf]
  have hbytes : ∀ k, s'.disk.getStructureBytes c n k = s.disk.getStructureBytes c n k := fun k => by
    unfold ArchDir.getStructureBytes; rw [hopen]
  have hex : s'.disk.layerExists n = true := by
    unfold ArchDir.layerExists at hn ⊢; rw [hf]; exact hn
  refine ⟨hex, by unfold directoryExists; rw [hex, Bool.or_true], ?_, fun f hfr => ?_⟩
  · unfold layerParent ArchDir.getParent; rw [hbytes]
  · have hlex : ∀ k, s'.disk.layerFileExists n k = s.disk.layerFileExists n k := fun k => by
      unfold ArchDir.layerFileExists; rw [hf]
    have hsize : ∀ k, s'.disk.getStructureSize c n k = s.disk.getStructureSize c n k := fun k => by
      unfold ArchDir.getStructureSize; rw [hopen]
    cases hk : FileName.kind f with
    | err =>
      unfold ArchStore.fileExists ArchStore.map ArchStore.size getFile
      rw [hk]; exact ⟨rfl, rfl, rfl⟩
    | panic =>
      unfold ArchStore.fileExists ArchStore.map ArchStore.size getFile
      rw [hk]; exact ⟨rfl, rfl, rfl⟩
    | ok k =>
      have hkr := kind_rollup hfr hk
      have hg := getFile_stored hb hk hkr
      have hg' := getFile_stored hb' hk hkr
      refine ⟨?_, ?_, ?_⟩
      · rw [fileExists_stored hb hk hkr, fileExists_stored hb' hk hkr, hlex]
      · unfold ArchStore.map
        rw [hg, hg']
        show Slice.map c s'.disk n k = Slice.map c s.disk n k
        unfold Slice.map
        rw [hbytes]
      · unfold ArchStore.size
        rw [hg, hg']
        exact hsize k

/-! ### Rollups -/

/-- What the happenings say about the rollup of a layer: nothing, the last one that was registered,
or that registering it was cut off. -/
inductive Rollup where
  | none
  | registered (r : LayerName)
  | cut (r : LayerName)

/-- The last that happened to the rollup of a layer. -/
def lastRollup (n : LayerName) : List Happening → Rollup
  | [] => .none
  | .call (.rolled m r) :: L => if m = n then .registered r else lastRollup n L
  | .cutRollup m r :: L => if m = n then .cut r else lastRollup n L
  | _ :: L => lastRollup n L

/-- What is in the rollup file then. -/
def Rollup.File : Rollup → Option Bytes → Prop
  | .none, o => o = Option.none
  | .registered r, o => o = some (rollupBytes r)
  | .cut r, o => ∃ i, o = some ((rollupBytes r).take i)

theorem getRollup_file {d : ArchDir} {n : LayerName} {b : Bytes} (hf : d.layerExists n = true)
    (hr : d.rollups.lookup n = some b) :
    d.getRollup n = (ArchDir.secondLine (utf8Lossy b)).bind (fun l =>
      (stringToName l).bind (fun r => .ok (some r))) := by
  unfold ArchDir.layerExists at hf
  unfold ArchDir.getRollup
  cases h : d.file n with
  | none => rw [h] at hf; cases hf
  | some x => rw [hr]; rfl

theorem rollupBytes_take_ascii (r : LayerName) (i : Nat) : ∀ c ∈ (rollupBytes r).take i, c < 0x80 :=
  fun c hc => rollupFile_ascii r c (List.mem_of_mem_take hc)

theorem secondLine_two {t k l : Text} (h : Text.lines t = [k, l]) : ArchDir.secondLine t = .ok l := by
  unfold ArchDir.secondLine
  rw [h]
  rfl

theorem fileExists_rollup (s : ArchStore) (n : LayerName) :
    s.fileExists n FileName.rollup = (s.disk.getRollup n).bind (fun r => .ok r.isSome) := by
  unfold ArchStore.fileExists
  rw [show FileName.kind FileName.rollup = .ok FileKind.rollup by decide]
  rfl

/-- A rollup file without a second line is a panic. -/
theorem getRollup_torn {d : ArchDir} {n r : LayerName} {i : Nat} (hi : i ≤ 2)
    (hf : d.layerExists n = true) (hr : d.rollups.lookup n = some ((rollupBytes r).take i)) :
    d.getRollup n = .panic := by
  rw [getRollup_file hf hr, utf8Lossy_ascii _ (rollupBytes_take_ascii r i)]
  match i, hi with
  | 0, _ => rfl
  | 1, _ => rfl
  | 2, _ => rfl

/-- A rollup file in which the name is cut off is an error. -/
theorem getRollup_cut {d : ArchDir} {n r : LayerName} {i : Nat} (h2 : 2 < i) (hi : i < 42)
    (hf : d.layerExists n = true) (hr : d.rollups.lookup n = some ((rollupBytes r).take i)) :
    d.getRollup n = .err := by
  rw [getRollup_file hf hr, utf8Lossy_ascii _ (rollupBytes_take_ascii r i)]
  obtain ⟨j, rfl⟩ : ∃ j, i = j + 2 := ⟨i - 2, by omega⟩
  have e : (rollupBytes r).take (j + 2) = [49] ++ 10 :: (nameToString r).take j := by
    unfold rollupBytes
    rw [List.take_append_of_le_length (by simp [nameToString_length]; omega)]
    rfl
  have hl : ((nameToString r).take j).length = j := by
    rw [List.length_take, nameToString_length]; omega
  have hls : Text.lines ([49] ++ 10 :: (nameToString r).take j) = [[49], (nameToString r).take j] := by
    rw [Text.lines_line [49] _ (by decide)]
    rw [Text.lines_last ((nameToString r).take j) (fun c hc =>
      layerText_line (o := some r) c (List.mem_of_mem_take (l := nameToString r) hc))
      (by intro e; rw [e] at hl; simp at hl; omega)]
  rw [e, secondLine_two hls, Out.bind]
  unfold stringToName
  rw [if_pos (by
    rw [Text.len_ascii _ (fun c hc => nameToString_ascii c (List.mem_of_mem_take hc)), hl]
    omega)]
  rfl

/-- A rollup file is read if at most the end of the last line is missing. -/
theorem getRollup_whole {d : ArchDir} {n r : LayerName} {i : Nat} (hi : 42 ≤ i)
    (hf : d.layerExists n = true) (hr : d.rollups.lookup n = some ((rollupBytes r).take i)) :
    d.getRollup n = .ok (some r) := by
  by_cases h3 : 43 ≤ i
  · rw [List.take_of_length_le (by
      rw [show (rollupBytes r).length = 43 from rollupFile_length r]; exact h3)] at hr
    exact getRollup_of hf hr
  · have : i = 42 := by omega
    subst this
    rw [getRollup_file hf hr, utf8Lossy_ascii _ (rollupBytes_take_ascii r 42)]
    have e : (rollupBytes r).take 42 = [49] ++ 10 :: nameToString r := by
      unfold rollupBytes
      rw [List.take_left' (by simp [nameToString_length])]
      rfl
    have hne : nameToString r ≠ [] := by
      intro e; have := nameToString_length r; rw [e] at this; cases this
    have hls : Text.lines ([49] ++ 10 :: nameToString r) = [[49], nameToString r] := by
      rw [Text.lines_line [49] _ (by decide),
        Text.lines_last (nameToString r) (layerText_line (o := some r)) hne]
    rw [e, secondLine_two hls, Out.bind, stringToName_nameToString, Out.bind]

theorem lookup_cons_ne {β : Type} {n m : LayerName} {b : β} {l : List (LayerName × β)} (h : m ≠ n) :
    List.lookup n ((m, b) :: l) = List.lookup n l := by
  rw [List.lookup_cons, beq_eq_false_iff_ne.mpr (Ne.symm h)]

theorem lookup_cons_same {β : Type} {n : LayerName} {b : β} {l : List (LayerName × β)} :
    List.lookup n ((n, b) :: l) = some b := by
  rw [List.lookup_cons, beq_self_eq_true]

theorem CStep.rollup {c : OffsetCodec} {s s' : ArchStore} {E L : List Happening} {n : LayerName}
    (h : CStep c s E s') (hr : (lastRollup n L).File (s.disk.rollups.lookup n)) :
    (lastRollup n (E ++ L)).File (s'.disk.rollups.lookup n) := by
  cases h with
  | call h =>
    cases h with
    | create h => obtain ⟨_, rfl⟩ := create_fresh h; exact hr
    | getNew _ h => rw [(getFile_same_disk h).1]; exact hr
    | getOld h _ => rw [(getFile_same_disk h).1]; exact hr
    | writeBytes h =>
      unfold ArchStore.writeBytes at h
      split at h
      · cases h
      · split at h
        · cases h
        · cases h; exact hr
    | write h => rw [(handleWrite_disk h).1]; exact hr
    | sync h => rw [(handleSync_disk h).1]; exact hr
    | finalize h => rw [(finalize_eq h).2.1]; exact hr
    | rollup h h2 =>
      rename_i d m r data
      obtain ⟨r', h⟩ := writeSync_ok h
      obtain ⟨h3, rfl⟩ := setRollup_eq h
      have : r = r' := by
        have h4 := getRollup_of (d := { s.disk with rollups := (m, rollupBytes r') :: s.disk.rollups })
          (r := r') h3 lookup_cons_same
        rw [h4] at h2
        cases h2; rfl
      subst this
      show (if m = n then Rollup.registered r else lastRollup n L).File
        (List.lookup n ((m, rollupBytes r) :: s.disk.rollups))
      by_cases e : m = n
      · subst e; rw [if_pos rfl, lookup_cons_same]; rfl
      · rw [if_neg e, lookup_cons_ne e]; exact hr
  | crash => exact hr
  | cutArchive i h => exact hr
  | cutRollup r i h =>
    rename_i m d
    show (if m = n then Rollup.cut r else lastRollup n L).File
      (List.lookup n ((m, (rollupBytes r).take i) :: s.disk.rollups))
    by_cases e : m = n
    · subst e; rw [if_pos rfl, lookup_cons_same]; exact ⟨i, rfl⟩
    · rw [if_neg e, lookup_cons_ne e]; exact hr

theorem CLater.rollup {c : OffsetCodec} {s : ArchStore} {L : List Happening}
    (h : CLater c {} L s) (n : LayerName) :
    (lastRollup n L).File (s.disk.rollups.lookup n) := by
  generalize hs : ({} : ArchStore) = s0 at h
  induction h with
  | now => subst hs; rfl
  | step _ hs ih => exact hs.rollup ih

/-- C52 for archive stores, in part: whatever happened, the rollup of a stored layer is the one
that was registered last. Missing: layers for which the registration of a rollup was cut off. For
these the rollup that was about to be registered is read, or reading fails. -/
theorem C52_archive_rollup_partial {c : OffsetCodec} {s : ArchStore} {L : List Happening}
    (h : CLater c {} L s) {n : LayerName} (hn : s.disk.layerExists n = true) :
    match lastRollup n L with
    | .none => s.disk.getRollup n = .ok none
    | .registered r => s.disk.getRollup n = .ok (some r)
    | .cut r => s.disk.getRollup n = .panic ∨ s.disk.getRollup n = .err ∨
        s.disk.getRollup n = .ok (some r) := by
  have hr := h.rollup n
  cases hl : lastRollup n L with
  | none =>
    rw [hl] at hr
    show _ = _
    unfold ArchDir.getRollup
    replace hr : s.disk.rollups.lookup n = Option.none := hr
    rw [hr]
    split <;> rfl
  | registered r =>
    rw [hl] at hr
    exact getRollup_of hn hr
  | cut r =>
    rw [hl] at hr
    obtain ⟨i, hr⟩ := hr
    by_cases h1 : i ≤ 2
    · exact Or.inl (getRollup_torn h1 hn hr)
    · by_cases h2 : i < 42
      · exact Or.inr (Or.inl (getRollup_cut (by omega) h2 hn hr))
      · exact Or.inr (Or.inr (getRollup_whole (by omega) hn hr))

/-- Not C52: in every state of an archive store and for every stored layer, a crash while a rollup
is registered for it may leave a store in which asking for the rollup of the layer panics, which
loading the layer does. -/
theorem C52_archive_rollup_wrong (c : OffsetCodec) (s : ArchStore) {n : LayerName}
    (hn : s.disk.layerExists n = true) (r : LayerName) :
    ∃ s', CStep c s [.cutRollup n r] s' ∧ s'.disk.layerExists n = true ∧
      s'.disk.getRollup n = .panic ∧ s'.fileExists n FileName.rollup = .panic := by
  have hd : ∃ d, s.disk.setRollup n r = .ok d := by
    unfold ArchDir.layerExists at hn
    unfold ArchDir.setRollup
    cases hf : s.disk.file n with
    | none => rw [hf] at hn; cases hn
    | some b => exact ⟨_, rfl⟩
  obtain ⟨d, hd⟩ := hd
  have hp : ArchDir.getRollup
      { s.disk with rollups := (n, (rollupBytes r).take 0) :: s.disk.rollups } n = .panic :=
    getRollup_torn (Nat.zero_le _) hn lookup_cons_same
  refine ⟨_, .cutRollup r 0 hd, hn, hp, ?_⟩
  rw [fileExists_rollup]
  show Out.bind (ArchDir.getRollup { s.disk with rollups := (n, (rollupBytes r).take 0) ::
    s.disk.rollups } n) _ = _
  rw [hp]
  rfl

end ArchStore

/-- Beyond C42: a rollup can be registered for a layer if and only if the layer was finalized;
otherwise registering it returns an error. -/
theorem C42_register {c : OffsetCodec} {s : ArchStore} {L : List ArchEvent}
    (h : ArchStore.Run c s L) (n r : LayerName) :
    (.finalized n ∈ L → ∃ d, RollupFile.writeSync s.disk n (rollupFile r) = .ok d ∧
      d.getRollup n = .ok (some r)) ∧
    (.finalized n ∉ L → RollupFile.writeSync s.disk n (rollupFile r) = .err) := by
  have h6 : ArchDir.secondLine (utf8Lossy (ArchStore.rollupBytes r)) = .ok (nameToString r) :=
    ArchStore.secondLine_two (ArchStore.lines_rollup r)
  have h7 : RollupFile.writeSync s.disk n (ArchStore.rollupBytes r) = s.disk.setRollup n r := by
    have h8 : ∀ {α β : Type} (x : α) (f : α → Out β), (Out.ok x >>= f) = f x := fun _ _ => rfl
    simp only [RollupFile.writeSync, h6, h8, stringToName_nameToString]
  show (_ → ∃ d, RollupFile.writeSync s.disk n (ArchStore.rollupBytes r) = .ok d ∧ _) ∧
    (_ → RollupFile.writeSync s.disk n (ArchStore.rollupBytes r) = .err)
  rw [h7]
  constructor
  · intro hn
    obtain ⟨files, _, hd, _⟩ := h.inv.is_stored (beforeFinal_isSome.mpr hn)
    unfold ArchDir.setRollup
    rw [hd]
    exact ⟨_, rfl, ArchStore.getRollup_of (d := { s.disk with rollups :=
      (n, ArchStore.rollupBytes r) :: s.disk.rollups }) (by show (s.disk.file n).isSome = true; rw [hd]; rfl)
      ArchStore.lookup_cons_same⟩
  · intro hn
    have hf : s.disk.file n = none := by
      cases hd : s.disk.file n with
      | none => rfl
      | some b =>
        exact absurd (beforeFinal_isSome.mp (h.inv.stored n b hd).2.1) hn
    unfold ArchDir.setRollup
    rw [hf]

/-- The files of a run in `Verif/Props/Archive.lean`: a rollup was registered for a layer that was
finalized. With a new store it is refused. -/
example (c : OffsetCodec) (n r : LayerName) :
    RollupFile.writeSync ({} : ArchStore).disk n (rollupFile r) = .err :=
  (C42_register (c := c) .start n r).2 (by simp)

end Verif
