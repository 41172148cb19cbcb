import Verif.Lemmas.Backend

/-!
Directories, memory and archives take new layers.
-/

namespace Verif

theorem option_lookup_cons {α β : Type} [DecidableEq α] (a x : α) (b : β) (l : List (α × β)) :
    ((x, b) :: l).lookup a = if a = x then some b else l.lookup a := by
  rw [List.lookup_cons]
  by_cases e : a = x
  · simp [e]
  · have : (a == x) = false := by simpa using e
    rw [this, if_neg e]

namespace Backend

/-! ### Directories -/

/-- Directories have plain files. -/
def plainDirectory (trunc : Bool) : (Backend.directory trunc).Plain where
  dirs := DirLayers.directoryExists
  content := DirLayers.content
  none_of s n f h := by
    unfold DirLayers.directoryExists at h
    unfold DirLayers.content
    cases hf : s.files n with
    | none => rfl
    | some fs => rw [hf] at h; cases h
  create_ok s n h := by
    unfold DirLayers.directoryExists at h
    have hf : s.files n = none := by
      cases hf : s.files n with
      | none => rfl
      | some fs => rw [hf] at h; cases h
    have e : s.create n = ⟨(n, []) :: s.layers⟩ := by unfold DirLayers.create; rw [hf]
    have e' : ∀ m, (s.create n).files m = if m = n then some [] else s.files m := fun m => by
      rw [e]; exact option_lookup_cons _ _ _ _
    refine ⟨s.create n, rfl, fun m => ?_, fun m g => ?_⟩
    · unfold DirLayers.directoryExists
      rw [e']
      by_cases h : m = n <;> simp [h]
    · unfold DirLayers.content
      rw [e']
      by_cases h : m = n
      · subst h; rw [hf]; simp
      · rw [if_neg h]
  write_ok s n f b h hc := by
    unfold DirLayers.directoryExists at h
    cases hf : s.files n with
    | none => rw [hf] at h; cases h
    | some fs =>
      have hl : fs.lookup f = none := by
        unfold DirLayers.content at hc
        rw [hf] at hc
        exact hc
      have hw : DirLayers.write trunc s n f b = .ok ⟨(n, (f, b) :: fs) :: s.layers⟩ := by
        unfold DirLayers.write
        rw [hf]
        dsimp only
        rw [hl]
        cases trunc <;> simp
      have e' : ∀ m, DirLayers.files ⟨(n, (f, b) :: fs) :: s.layers⟩ m =
          if m = n then some ((f, b) :: fs) else s.files m := fun m => option_lookup_cons _ _ _ _
      refine ⟨_, hw, fun m => ?_, fun m g => ?_⟩
      · unfold DirLayers.directoryExists
        rw [e']
        by_cases h : m = n
        · subst h; rw [hf]; simp
        · rw [if_neg h]
      · unfold DirLayers.content
        rw [e']
        by_cases h : m = n
        · subst h
          rw [if_pos rfl, hf]
          show ((f, b) :: fs).lookup g = if _ then _ else fs.lookup g
          rw [option_lookup_cons]
          by_cases hg : g = f <;> simp [hg]
        · rw [if_neg h, if_neg (fun e => h e.1)]
  final_ok s n h := by
    show DirLayers.finalize s n = _
    unfold DirLayers.directoryExists at h
    unfold DirLayers.finalize
    cases hf : s.files n with
    | none => rw [hf] at h; cases h
    | some fs => rfl
  dir_eq s n := rfl
  ans s n f := by
    refine ⟨rfl, fun h => ?_, fun b h => ?_⟩
    · exact ⟨by show DirLayers.map s n f = _; unfold DirLayers.map; rw [h],
        by show DirLayers.size s n f = _; unfold DirLayers.size; rw [h]⟩
    · exact ⟨by show DirLayers.map s n f = _; unfold DirLayers.map; rw [h],
        by show DirLayers.size s n f = _; unfold DirLayers.size; rw [h]⟩
  parent_eq s n := by
    show defaultLayerParent _ _ (DirLayers.map s n FileName.parent) = _
    unfold DirLayers.fileExists DirLayers.map
    cases s.content n FileName.parent <;> rfl

/-! ### Memory -/

theorem memFiles_set (s : MemLayers) (n m : LayerName) (fs : List (FileName × Option Bytes)) :
    (s.setFiles n fs).files m = if m = n then some fs else s.files m := by
  show ((n, fs) :: s.layers.filter (fun q => q.1 ≠ n)).lookup m = _
  rw [option_lookup_cons, lookup_filter_ne]
  by_cases e : m = n <;> simp [e, MemLayers.files]

/-- Memory has plain files. -/
def plainMemory : Backend.memory.Plain where
  dirs := MemLayers.directoryExists
  content := MemLayers.content
  none_of s n f h := by
    unfold MemLayers.directoryExists at h
    unfold MemLayers.content
    cases hf : s.files n with
    | none => rfl
    | some fs => rw [hf] at h; cases h
  create_ok s n h := by
    unfold MemLayers.directoryExists at h
    have hf : s.files n = none := by
      cases hf : s.files n with
      | none => rfl
      | some fs => rw [hf] at h; cases h
    have e' : ∀ m, (s.create n).files m = if m = n then some [] else s.files m :=
      fun m => memFiles_set s n m []
    refine ⟨s.create n, rfl, fun m => ?_, fun m g => ?_⟩
    · unfold MemLayers.directoryExists
      rw [e']
      by_cases h : m = n <;> simp [h]
    · unfold MemLayers.content
      rw [e']
      by_cases h : m = n
      · subst h; rw [hf]; simp
      · rw [if_neg h]
  write_ok s n f b h hc := by
    unfold MemLayers.directoryExists at h
    cases hf : s.files n with
    | none => rw [hf] at h; cases h
    | some fs =>
      unfold MemLayers.content at hc
      rw [hf] at hc
      replace hc : (fs.lookup f).bind (fun b => b) = none := hc
      obtain ⟨s1, fs1, h1, h2, h3, h4⟩ : ∃ s1 fs1, s.getFile n f = .ok s1 ∧
          s1.files n = some fs1 ∧ (∀ m, m ≠ n → s1.files m = s.files m) ∧
          ∀ g, g ≠ f → fs1.lookup g = fs.lookup g := by
        unfold MemLayers.getFile
        rw [hf]
        dsimp only
        cases hl : fs.lookup f with
        | some x => exact ⟨s, fs, rfl, hf, fun _ _ => rfl, fun _ _ => rfl⟩
        | none =>
          refine ⟨_, (f, none) :: fs, rfl, ?_, fun m hm => ?_, fun g hg => ?_⟩
          · exact (memFiles_set s n n _).trans (if_pos rfl)
          · exact (memFiles_set s n m _).trans (if_neg hm)
          · rw [option_lookup_cons, if_neg hg]
      refine ⟨s1.setFiles n ((f, some b) :: fs1), ?_, fun m => ?_, fun m g => ?_⟩
      · show MemLayers.write s n f b = _
        unfold MemLayers.write
        rw [h1]
        show (match s1.files n with
          | none => Out.err
          | some fs => Out.ok _) = _
        rw [h2]
        rfl
      · unfold MemLayers.directoryExists
        rw [memFiles_set]
        by_cases h : m = n
        · subst h; rw [hf]; simp
        · rw [if_neg h, h3 m h]
      · unfold MemLayers.content
        rw [memFiles_set]
        by_cases h : m = n
        · subst h
          rw [if_pos rfl, hf]
          show (((f, some b) :: fs1).lookup g).bind _ = if _ then _ else (fs.lookup g).bind _
          rw [option_lookup_cons]
          by_cases hg : g = f
          · simp [hg]
          · rw [if_neg hg, if_neg (fun e => hg e.2), h4 g hg]
        · rw [if_neg h, if_neg (fun e => h e.1), h3 m h]
  final_ok s n h := rfl
  dir_eq s n := rfl
  ans s n f := by
    refine ⟨?_, fun h => ?_, fun b h => ?_⟩
    · show Out.ok (MemLayers.fileExists s n f) = _
      congr 1
      unfold MemLayers.fileExists MemLayers.content
      cases s.files n with
      | none => rfl
      | some fs =>
        show (match fs.lookup f with
          | none => false
          | some b => b.isSome) = ((fs.lookup f).bind _).isSome
        cases fs.lookup f <;> rfl
    · exact ⟨by show MemLayers.map s n f = _; unfold MemLayers.map; rw [h],
        by show MemLayers.size s n f = _; unfold MemLayers.size; rw [h]⟩
    · exact ⟨by show MemLayers.map s n f = _; unfold MemLayers.map; rw [h],
        by show MemLayers.size s n f = _; unfold MemLayers.size; rw [h]⟩
  parent_eq s n := by
    have e : s.fileExists n FileName.parent = (s.content n FileName.parent).isSome := by
      unfold MemLayers.fileExists MemLayers.content
      cases s.files n with
      | none => rfl
      | some fs =>
        show (match fs.lookup FileName.parent with
          | none => false
          | some b => b.isSome) = ((fs.lookup FileName.parent).bind _).isSome
        cases fs.lookup FileName.parent <;> rfl
    show defaultLayerParent _ (.ok (s.fileExists n FileName.parent)) (MemLayers.map s n _) = _
    rw [e]
    unfold MemLayers.map
    cases s.content n FileName.parent <;> rfl

end Backend

end Verif
