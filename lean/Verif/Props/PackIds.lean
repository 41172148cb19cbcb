import Verif.Lemmas.ImportFrame

/-!
Importing names that are not in the pack, C47, and listing the layers of a store, C48.
-/

namespace Verif

open PackSpec

namespace Pack

/-- A pack whose entries have names, and none of them is in the directory of a layer. -/
def Without (pack : List PackEntry) (n : LayerName) : Prop :=
  ∀ e ∈ pack, fileName e.path ≠ none ∧ e.path.head? ≠ some (nameString n)

theorem without_nothing {B : Backend} {pack : List PackEntry} {n : LayerName} (h : Without pack n)
    (s : B.State) : Out.forEach (importEntry B [nameString n]) s pack = .ok s := by
  induction pack with
  | nil => rfl
  | cons e pack ih =>
    obtain ⟨h1, h2⟩ := h e List.mem_cons_self
    have : importEntry B [nameString n] s e = .ok s := by
      unfold importEntry
      cases hf : fileName e.path with
      | none => exact absurd hf h1
      | some f =>
        dsimp only
        refine if_neg (fun hm => ?_)
        rw [List.mem_singleton] at hm
        unfold first at hm
        cases hh : e.path.head? with
        | none =>
          rw [hh] at hm
          replace hm : "" = nameString n := hm
          have hl := nameToString_length n
          rw [← textOf_nameString, ← hm] at hl
          exact absurd hl (by decide)
        | some x =>
          rw [hh] at hm
          exact h2 (by rw [hh]; exact congrArg some hm)
    rw [Out.forEach_cons, this]
    exact ih (fun e he => h e (List.mem_cons_of_mem _ he))

end Pack

/-- C47 is false: a name that is not in the pack is not ignored. In stores of each kind a new
layer with that name appears, without any files. -/
theorem C47_missing_appears {K : StoreKind} {s : K.backend.State} (h : K.Reached s) {n : LayerName}
    (hn : K.backend.directoryExists s n = false) {pack : List PackEntry} (hp : Pack.Without pack n) :
    ∃ s', Pack.importLayers K.backend s pack [n] [n] = .ok s' ∧
      K.backend.directoryExists s' n = true ∧
      (∀ f k, FileName.kind f = .ok k → k ≠ FileKind.rollup →
        K.backend.fileExists s' n f = .ok false) ∧
      K.backend.fileExists s' n FileName.rollup = .ok false ∧
      K.backend.layerParent s' n = .ok none := by
  obtain ⟨s1, s2, s3, h1, h2, h3, h4, -⟩ := h.takes [n] [n] [] (by simp) (List.Perm.refl _)
    (fun m hm => by rw [List.mem_singleton.mp hm]; exact hn)
    ⟨fun p hp => (by cases hp), fun p hp => (by cases hp), List.nodup_nil,
      fun m _ => by simp, fun p hp => (by cases hp)⟩
  cases h2
  obtain ⟨f1, -, f3, f4, f5, -⟩ := h4 n (by simp)
  refine ⟨s3, ?_, f1, fun f k hk e => (f3 f k hk e (fun _ _ h => (by cases h))).ex, f4,
    f5 (fun b hb => (by cases hb))⟩
  unfold Pack.importLayers
  rw [h1]
  show (Out.forEach (Pack.importEntry K.backend [nameString n]) s1 pack).bind _ = _
  rw [Pack.without_nothing hp]
  exact h3

/-- C47 is false: in a store in memory, importing a name that is not in the pack empties the
layer with that name. -/
theorem C47_memory_emptied {s : MemLayers} {n : LayerName} {pack : List PackEntry}
    (hp : Pack.Without pack n) :
    ∃ s', Pack.importLayers .memory s pack [n] [n] = .ok s' ∧
      Backend.memory.directoryExists s' n = true ∧
      ∀ f, Backend.memory.fileExists s' n f = .ok false := by
  have h1 : Pack.importLayers .memory s pack [n] [n] = .ok (s.create n) := by
    unfold Pack.importLayers
    show (Out.forEach (Pack.importEntry Backend.memory [nameString n]) (s.create n) pack).bind _ = _
    rw [Pack.without_nothing (B := .memory) hp (s.create n)]
    rfl
  have h2 : (s.create n).files n = some [] := by
    unfold MemLayers.create
    rw [MemLayers.files_set, if_pos rfl]
  refine ⟨s.create n, h1, ?_, fun f => ?_⟩
  · show MemLayers.directoryExists (s.create n) n = true
    unfold MemLayers.directoryExists
    rw [h2]; rfl
  · show Out.ok (MemLayers.fileExists (s.create n) n f) = _
    unfold MemLayers.fileExists
    rw [h2]; rfl

/-- C47 is false: in an archive store, importing a name that the store has already is a panic,
whether or not it is in the pack. -/
theorem C47_archive_panics {c : OffsetCodec} {s : ArchStore} {n : LayerName}
    (hn : s.directoryExists n = true) (pack : List PackEntry) (ids order : List LayerName) :
    Pack.importLayers (.archive c) s pack (n :: ids) order = .panic := by
  unfold Pack.importLayers
  have : s.createNamed n = .panic := by
    unfold ArchStore.createNamed
    unfold ArchStore.directoryExists at hn
    cases hd : s.disk.layerExists n with
    | true => rfl
    | false =>
      rw [hd, Bool.or_false] at hn
      obtain ⟨m, hm⟩ := Option.isSome_iff_exists.mp hn
      rw [hm]
      rfl
  have e : Out.forEach (Backend.archive c).create s (n :: ids) = .panic := by
    show (s.createNamed n).bind _ = _
    rw [this]
    rfl
  exact congrArg (fun x => Out.bind x _) e

/-- C47, what holds: layers that are not asked for are untouched by any import that succeeds;
and in a directory store also existing layers that are asked for and are not in the pack. -/
theorem C47_others_partial {K : StoreKind} {s s' : K.backend.State} (h : K.Reached s)
    {pack : List PackEntry} {ids order : List LayerName} (ho : ∀ n ∈ order, n ∈ ids)
    (hi : Pack.importLayers K.backend s pack ids order = .ok s') {n : LayerName}
    (hn : n ∉ ids ∨ (∃ t, K = .directory t) ∧ K.backend.directoryExists s n = true ∧
      ∀ e ∈ pack, e.path.head? ≠ some (nameString n)) : Unchanged K.backend s s' n := by
  cases K with
  | directory t =>
    exact DirLayers.import_others hi (hn.imp id (fun h => h.2))
  | memory =>
    rcases hn with hn | ⟨⟨t, ht⟩, -⟩
    · refine MemLayers.unchanged ?_
      rw [MemLayers.import_files_eq hi (fun h => absurd h hn), if_neg hn]
    · cases ht
  | archive c =>
    rcases hn with hn | ⟨⟨t, ht⟩, -⟩
    · obtain ⟨L, hr⟩ := h
      exact ArchStore.import_others hr ho hi hn
    · cases ht

/-! ### Listing -/

/-- Calls on a store in memory. -/
inductive MemCall where
  | create (n : LayerName)
  | getFile (n : LayerName) (f : FileName)
  | write (n : LayerName) (f : FileName) (b : Bytes)

/-- The result of a call, or a state if it fails. -/
def Out.getD {α : Type} : Out α → α → α
  | .ok a, _ => a
  | _, a => a

/-- What a call does; a call that fails changes nothing. -/
def MemLayers.call (s : MemLayers) : MemCall → MemLayers
  | .create n => s.create n
  | .getFile n f => (s.getFile n f).getD s
  | .write n f b => (s.write n f b).getD s

/-- The names that are created by some calls. -/
def MemCall.created : List MemCall → List LayerName
  | [] => []
  | .create n :: l => n :: created l
  | _ :: l => created l

theorem MemLayers.keys_set (s : MemLayers) (n : LayerName) (fs : List (FileName × Option Bytes))
    (h : s.directories.Nodup) : (s.setFiles n fs).directories.Nodup ∧
      ∀ m, m ∈ (s.setFiles n fs).directories ↔ m = n ∨ m ∈ s.directories := by
  unfold directories setFiles at *
  constructor
  · rw [List.map_cons, List.nodup_cons]
    refine ⟨fun hm => ?_, List.Pairwise.sublist (List.Sublist.map _ List.filter_sublist) h⟩
    obtain ⟨⟨k, q⟩, h1, h2⟩ := List.mem_map.mp hm
    exact absurd h2 (by simpa using (List.mem_filter.mp h1).2)
  · intro m
    rw [List.map_cons, List.mem_cons]
    by_cases e : m = n
    · simp [e]
    · refine or_congr Iff.rfl ⟨fun hm => ?_, fun hm => ?_⟩
      · obtain ⟨q, h1, h2⟩ := List.mem_map.mp hm
        exact List.mem_map.mpr ⟨q, (List.mem_filter.mp h1).1, h2⟩
      · obtain ⟨q, h1, h2⟩ := List.mem_map.mp hm
        exact List.mem_map.mpr ⟨q, List.mem_filter.mpr ⟨h1, by simpa [h2] using e⟩, h2⟩

theorem MemLayers.has_key {s : MemLayers} {n : LayerName} {fs : List (FileName × Option Bytes)}
    (h : s.files n = some fs) : n ∈ s.directories :=
  List.mem_map.mpr ⟨_, lookup_mem h, rfl⟩

theorem MemLayers.keys_getFile {s s' : MemLayers} {n : LayerName} {f : FileName}
    (h : s.directories.Nodup) (hg : s.getFile n f = .ok s') :
    s'.directories.Nodup ∧ ∀ m, m ∈ s'.directories ↔ m ∈ s.directories := by
  unfold getFile at hg
  split at hg
  · cases hg
  · rename_i fs hf
    split at hg
    · cases hg; exact ⟨h, fun _ => Iff.rfl⟩
    · cases hg
      obtain ⟨h1, h2⟩ := keys_set s n ((f, none) :: fs) h
      exact ⟨h1, fun m => by
        rw [h2]
        exact ⟨fun hm => hm.elim (fun e => e ▸ has_key hf) id, Or.inr⟩⟩

theorem MemLayers.keys_write {s s' : MemLayers} {n : LayerName} {f : FileName} {b : Bytes}
    (h : s.directories.Nodup) (hg : s.write n f b = .ok s') :
    s'.directories.Nodup ∧ ∀ m, m ∈ s'.directories ↔ m ∈ s.directories := by
  unfold write at hg
  obtain ⟨t, h1, h2⟩ := Out.of_bind_ok hg
  obtain ⟨h3, h4⟩ := keys_getFile h h1
  split at h2
  · cases h2
  · rename_i fs hf
    cases h2
    obtain ⟨h5, h6⟩ := keys_set t n ((f, some b) :: fs) h3
    exact ⟨h5, fun m => by
      rw [h6, ← h4]
      exact ⟨fun hm => hm.elim (fun e => e ▸ has_key hf) id, Or.inr⟩⟩

/-- C48 for stores in memory: after any calls, the listing has exactly the names that were
created, each once. -/
theorem C48_memory_partial (calls : List MemCall) :
    ∃ l, Backend.memory.directories (calls.foldl MemLayers.call {}) = .ok l ∧ l.Nodup ∧
      ∀ n, n ∈ l ↔ n ∈ MemCall.created calls := by
  have key : ∀ (calls : List MemCall) (s : MemLayers), s.directories.Nodup →
      (calls.foldl MemLayers.call s).directories.Nodup ∧
      ∀ n, n ∈ (calls.foldl MemLayers.call s).directories ↔
        n ∈ s.directories ∨ n ∈ MemCall.created calls := by
    intro calls
    induction calls with
    | nil => intro s h; exact ⟨h, fun n => by simp [MemCall.created]⟩
    | cons a calls ih =>
      intro s h
      rw [List.foldl_cons]
      have step : (s.call a).directories.Nodup ∧ ∀ n, n ∈ (s.call a).directories ↔
          n ∈ s.directories ∨ n ∈ MemCall.created [a] := by
        cases a with
        | create m =>
          obtain ⟨h1, h2⟩ := MemLayers.keys_set s m [] h
          exact ⟨h1, fun n => by
            show n ∈ (s.setFiles m []).directories ↔ _
            rw [h2, or_comm]
            simp [MemCall.created]⟩
        | getFile m f =>
          show ((s.getFile m f).getD s).directories.Nodup ∧ ∀ n,
            n ∈ ((s.getFile m f).getD s).directories ↔ _
          cases hg : s.getFile m f with
          | ok s' =>
            obtain ⟨h1, h2⟩ := MemLayers.keys_getFile h hg
            exact ⟨h1, fun n => by simp [MemCall.created, Out.getD, h2]⟩
          | err => exact ⟨h, fun n => by simp [MemCall.created, Out.getD]⟩
          | panic => exact ⟨h, fun n => by simp [MemCall.created, Out.getD]⟩
        | write m f b =>
          show ((s.write m f b).getD s).directories.Nodup ∧ ∀ n,
            n ∈ ((s.write m f b).getD s).directories ↔ _
          cases hg : s.write m f b with
          | ok s' =>
            obtain ⟨h1, h2⟩ := MemLayers.keys_write h hg
            exact ⟨h1, fun n => by simp [MemCall.created, Out.getD, h2]⟩
          | err => exact ⟨h, fun n => by simp [MemCall.created, Out.getD]⟩
          | panic => exact ⟨h, fun n => by simp [MemCall.created, Out.getD]⟩
      obtain ⟨h3, h4⟩ := ih (s.call a) step.1
      refine ⟨h3, fun n => ?_⟩
      rw [h4, step.2, or_assoc]
      refine or_congr Iff.rfl ?_
      cases a <;> simp [MemCall.created]
  obtain ⟨h1, h2⟩ := key calls {} List.nodup_nil
  exact ⟨_, rfl, h1, fun n => (h2 n).trans ⟨fun h => h.elim (fun h => (by cases h)) id, Or.inr⟩⟩

/-- C48 is false for directory stores: if there is a layer in the store, the listing is an
error. -/
theorem C48_directory_wrong (trunc : Bool) {s : DirLayers} {n : LayerName}
    (h : s.directoryExists n = true) : (Backend.directory trunc).directories s = .err := by
  show Out.collect stringToName s.prefixes = .err
  have hne : ∃ t l, s.prefixes = t :: l := by
    have : (nameToString n).take 3 ∈ s.prefixes := by
      unfold DirLayers.prefixes
      rw [List.mem_eraseDups]
      obtain ⟨fs, hf⟩ := Option.isSome_iff_exists.mp h
      exact List.mem_map.mpr ⟨_, lookup_mem hf, rfl⟩
    cases hp : s.prefixes with
    | nil => rw [hp] at this; cases this
    | cons t l => exact ⟨t, l, rfl⟩
  obtain ⟨t, l, hp⟩ := hne
  have ht : stringToName t = .err := by
    have hm : t ∈ s.prefixes := by rw [hp]; exact List.mem_cons_self
    unfold DirLayers.prefixes at hm
    rw [List.mem_eraseDups] at hm
    obtain ⟨q, -, rfl⟩ := List.mem_map.mp hm
    have ha : ∀ c ∈ (nameToString q.1).take 3, c < 0x80 := fun c hc =>
      nameToString_ascii c (List.mem_of_mem_take hc)
    unfold stringToName
    rw [if_pos]
    rw [Text.len_ascii _ ha, List.length_take, nameToString_length]
    decide
  rw [hp]
  show (stringToName t).bind _ = _
  rw [ht]
  rfl

/-- C48 is false for archive stores: the listing has the layers under construction, and none of
the layers that are stored. -/
theorem C48_archive_wrong {c : OffsetCodec} {s : ArchStore} {L : List ArchEvent}
    (h : ArchStore.Run c s L) :
    ∃ l, (Backend.archive c).directories s = .ok l ∧
      (∀ n, n ∈ l ↔ (s.building n).isSome) ∧ ∀ n, s.disk.layerExists n = true → n ∉ l := by
  have h0 : s.disk.layerNames = .ok [] := by
    unfold ArchDir.layerNames
    have : s.disk.rootEntries.filter (fun e => ArchDir.larchSuffix.isSuffixOf e.1 && e.2) = [] := by
      rw [List.filter_eq_nil_iff]
      intro e he
      unfold ArchDir.rootEntries at he
      rw [List.mem_eraseDups] at he
      obtain ⟨n, -, rfl⟩ := List.mem_map.mp he
      simp
    rw [this]
    rfl
  have hm : ∀ n, n ∈ (([] : List LayerName) ++ s.constr.map (fun q => q.1)).eraseDups ↔ (s.building n).isSome := fun n => by
    rw [List.mem_eraseDups, List.nil_append]
    unfold ArchStore.building
    constructor
    · intro hn
      obtain ⟨⟨k, m⟩, h1, rfl⟩ := List.mem_map.mp hn
      cases hl : s.constr.lookup k with
      | some _ => rfl
      | none => exact absurd h1 (lookup_none.mp hl m)
    · intro hn
      obtain ⟨m, hm⟩ := Option.isSome_iff_exists.mp hn
      exact List.mem_map.mpr ⟨_, lookup_mem hm, rfl⟩
  refine ⟨(([] : List LayerName) ++ s.constr.map (fun q => q.1)).eraseDups, ?_, hm, fun n hn hl => ?_⟩
  · show s.disk.layerNames.bind _ = _
    rw [h0]
    rfl
  · obtain ⟨m, hb⟩ := Option.isSome_iff_exists.mp ((hm n).mp hl)
    have := (h.inv.fresh n m hb).2
    unfold ArchDir.layerExists at hn
    rw [this] at hn
    cases hn

/-! ### Cases -/

namespace PackIdsExample

/-- A name. -/
def n : LayerName := ⟨1, 2, 3, 4, 5⟩

/-- A pack with one layer. -/
def pack : List PackEntry :=
  [⟨[nameString ⟨6, 7, 8, 9, 10⟩], false, []⟩,
   ⟨[nameString ⟨6, 7, 8, 9, 10⟩, "node_dictionary_blocks.tfc"], true, [1, 2]⟩]

theorem without : Pack.Without pack n := by unfold Pack.Without; decide +kernel

/-- A new directory store, and a name that is not in the pack. -/
example : ∃ s', Pack.importLayers (Backend.directory true) ({} : DirLayers) pack [n] [n] = .ok s' ∧
    (Backend.directory true).directoryExists s' n = true := by
  obtain ⟨s', h1, h2, -⟩ := C47_missing_appears (K := .directory true) (s := ({} : DirLayers)) trivial
    (n := n) rfl without
  exact ⟨s', h1, h2⟩

/-- A store in memory with a layer that has a file, which is lost. -/
def store : MemLayers := ⟨[(n, [("node_dictionary_blocks.tfc", some [7])])]⟩

example : Backend.memory.fileExists store n "node_dictionary_blocks.tfc" = .ok true := by decide
example : ∃ s', Pack.importLayers .memory store pack [n] [n] = .ok s' ∧
    Backend.memory.fileExists s' n "node_dictionary_blocks.tfc" = .ok false := by
  obtain ⟨s', h1, -, h2⟩ := C47_memory_emptied (s := store) without
  exact ⟨s', h1, h2 _⟩

/-- An archive store with a layer under construction, and then with the layer stored. -/
example (c : OffsetCodec) : ∃ s1 s2 L1 L2, ArchStore.Run c s1 L1 ∧ ArchStore.Run c s2 L2 ∧
    (s1.building n).isSome ∧ s1.directoryExists n = true ∧ s2.disk.layerExists n = true := by
  have h1 : ({} : ArchStore).createNamed n = .ok (({} : ArchStore).setBuilding n []) := rfl
  have r1 := ArchStore.Run.start (c := c) |>.step (.create h1)
  have h2 : (({} : ArchStore).setBuilding n []).finalize c n = .ok _ := rfl
  exact ⟨_, _, _, _, r1, r1.step (.finalize h2), by decide, by decide, rfl⟩

example : (Backend.directory true).directoryExists (⟨[(n, [])]⟩ : DirLayers) n = true := by decide
example : MemCall.created [.create n, .write n "parent.hex" [1], .create ⟨1, 1, 1, 1, 1⟩] =
    [n, ⟨1, 1, 1, 1, 1⟩] := rfl

end PackIdsExample

end Verif
