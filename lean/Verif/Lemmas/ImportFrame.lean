import Verif.Lemmas.PackParents

/-!
Imports do not change other layers.
-/

namespace Verif

open PackSpec

namespace Pack

/-- Writing the entries of a pack keeps what each write keeps. -/
theorem entries_keep {B : Backend} (F : B.State → Prop) {ids : List LayerName}
    (pack : List PackEntry)
    (hw : ∀ m ∈ ids, (∃ e ∈ pack, e.path.head? = some (nameString m)) → ∀ s s' f b, F s →
      B.write s m f b = .ok s' → F s')
    {s s' : B.State} (h : F s)
    (he : Out.forEach (importEntry B (ids.map nameString)) s pack = .ok s') : F s' := by
  induction pack generalizing s with
  | nil => cases he; exact h
  | cons e pack ih =>
    rw [Out.forEach_cons] at he
    obtain ⟨s1, h1, h2⟩ := Out.of_bind_ok he
    refine ih (fun m hm ⟨e, he, hh⟩ => hw m hm ⟨e, List.mem_cons_of_mem _ he, hh⟩) ?_ h2
    unfold importEntry at h1
    split at h1
    · cases h1
    · rename_i f hf
      dsimp only at h1
      split at h1
      · rename_i hid
        obtain ⟨m, hm, hmid⟩ := List.mem_map.mp hid
        obtain ⟨n, hn, h1⟩ := Out.of_bind_ok h1
        have hnm : n = m := by
          rw [← hmid, stringToName_nameString] at hn
          cases hn; rfl
        have hhead : e.path.head? = some (nameString m) := by
          unfold first at hmid
          cases hh : e.path.head? with
          | none =>
            rw [hh] at hmid
            replace hmid : nameString m = "" := hmid
            have hl := nameToString_length m
            rw [← textOf_nameString, hmid] at hl
            exact absurd hl (by decide)
          | some x =>
            rw [hh] at hmid
            exact congrArg some hmid.symm
        split at h1
        · rw [hnm] at h1
          exact hw m hm ⟨e, List.mem_cons_self, hhead⟩ _ _ _ _ h h1
        · cases h1; exact h
      · cases h1; exact h

theorem forEach_keep {α σ : Type} {f : σ → α → Out σ} (F : σ → Prop) (l : List α)
    (hf : ∀ a ∈ l, ∀ s s', F s → f s a = .ok s' → F s') {s s' : σ} (h : F s)
    (he : Out.forEach f s l = .ok s') : F s' := by
  induction l generalizing s with
  | nil => cases he; exact h
  | cons a l ih =>
    rw [Out.forEach_cons] at he
    obtain ⟨s1, h1, h2⟩ := Out.of_bind_ok he
    exact ih (fun a ha => hf a (List.mem_cons_of_mem _ ha)) (hf a List.mem_cons_self _ _ h h1) h2

end Pack

/-! ### Archives -/

namespace ArchStore

theorem create_fresh {s s' : ArchStore} {n : LayerName} (h : s.createNamed n = .ok s') :
    s.directoryExists n = false ∧ s' = s.setBuilding n [] := by
  unfold createNamed at h
  split at h
  · cases h
  · rename_i hd
    split at h
    · cases h
    · rename_i hb
      cases h
      exact ⟨by unfold directoryExists; rw [hb]; simpa using hd, rfl⟩

theorem create_all_fresh (ids : List LayerName) : ∀ {s s' : ArchStore},
    Out.forEach createNamed s ids = .ok s' →
    ids.Nodup ∧ ∀ n ∈ ids, s.directoryExists n = false := by
  induction ids with
  | nil => intro s s' _; exact ⟨List.nodup_nil, fun n hn => (by cases hn)⟩
  | cons a ids ih =>
    intro s s' h
    rw [Out.forEach_cons] at h
    obtain ⟨s1, h1, h2⟩ := Out.of_bind_ok h
    obtain ⟨h3, rfl⟩ := create_fresh h1
    obtain ⟨h4, h5⟩ := ih h2
    have ne : ∀ n ∈ ids, n ≠ a := fun n hn e => by
      have := h5 n hn
      unfold directoryExists at this
      rw [building_set, if_pos e] at this
      simp at this
    refine ⟨List.nodup_cons.mpr ⟨fun hm => ne a hm rfl, h4⟩, fun n hn => ?_⟩
    rcases List.mem_cons.mp hn with rfl | hn
    · exact h3
    · have := h5 n hn
      unfold directoryExists at this ⊢
      rw [building_set, if_neg (ne n hn)] at this
      exact this

/-- What stays while layers are imported: the files that were there, and all about a layer that
is not imported. -/
structure Kept (s : ArchStore) (ids : List LayerName) (n : LayerName) (t : ArchStore) : Prop where
  len : s.heap.length ≤ t.heap.length
  heap : ∀ h, h < s.heap.length → t.heap[h]? = s.heap[h]?
  handles : ∀ m ∈ ids, ∀ l, t.building m = some l → ∀ q ∈ l, s.heap.length ≤ q.2
  building : t.building n = s.building n
  file : t.disk.file n = s.disk.file n
  rollup : t.disk.rollups.lookup n = s.disk.rollups.lookup n

theorem Kept.setFile {s t : ArchStore} {ids : List LayerName} {n : LayerName} (h : Kept s ids n t)
    {i : Nat} (hi : s.heap.length ≤ i) (f : CFile) : Kept s ids n (t.setFile i f) := by
  refine ⟨by unfold ArchStore.setFile; rw [List.length_set]; exact h.len, fun k hk => ?_, h.handles,
    h.building, h.file, h.rollup⟩
  unfold ArchStore.setFile
  rw [List.getElem?_set_ne (by omega)]
  exact h.heap k hk

theorem Kept.write {s t t' : ArchStore} {ids : List LayerName} {n m : LayerName}
    (h : Kept s ids n t) (hm : m ∈ ids) (hn : n ∉ ids) {f : FileName} {b : Bytes}
    (hw : t.write m f b = .ok t') : Kept s ids n t' := by
  have hne : n ≠ m := fun e => hn (e ▸ hm)
  unfold ArchStore.write at hw
  obtain ⟨⟨hd, u⟩, h1, hw⟩ := Out.of_bind_ok hw
  have put : ∀ i, s.heap.length ≤ i → Kept s ids n u → hd = .construction i →
      Kept s ids n t' := by
    intro i hi hu e
    subst e
    obtain ⟨r, h2, hw⟩ := Out.of_bind_ok hw
    cases h2
    dsimp only at hw
    obtain ⟨r, h3, hw⟩ := Out.of_bind_ok hw
    unfold handleWrite at h3
    split at h3
    · cases h3
    · rename_i x hx
      split at h3
      · cases h3
        unfold handleSync at hw
        split at hw
        · cases hw
        · split at hw
          · cases hw
            exact (hu.setFile hi _).setFile hi _
          · cases hw
          · cases hw
      · cases h3
      · cases h3
  unfold getFile at h1
  obtain ⟨k, hk, h1⟩ := Out.of_bind_ok h1
  split at h1
  · cases h1
    obtain ⟨r, h2, hw⟩ := Out.of_bind_ok hw
    cases h2
    dsimp only at hw
    obtain ⟨d, h3, hw⟩ := Out.of_bind_ok hw
    cases hw
    unfold RollupFile.writeSync at h3
    obtain ⟨l, -, h3⟩ := Out.of_bind_ok h3
    obtain ⟨r, -, h3⟩ := Out.of_bind_ok h3
    unfold ArchDir.setRollup at h3
    split at h3
    · cases h3
    · cases h3
      refine ⟨h.len, h.heap, h.handles, h.building, h.file, ?_⟩
      show List.lookup n (_ :: _) = _
      rw [List.lookup_cons, beq_eq_false_iff_ne.mpr hne]
      exact h.rollup
  · split at h1
    · cases h1
      obtain ⟨r, h2, hw⟩ := Out.of_bind_ok hw
      cases h2
    · rename_i l hl
      split at h1
      · rename_i i hi
        cases h1
        exact put i (h.handles m hm l hl _ (lookup_mem hi)) h rfl
      · cases h1
        refine put t.heap.length h.len ⟨?_, fun i hi => ?_, fun m' hm' l' hl' q hq => ?_, ?_, h.file,
          h.rollup⟩ rfl
        · show _ ≤ (t.heap ++ [CFile.new]).length
          rw [List.length_append]
          exact Nat.le_trans h.len (Nat.le_add_right _ _)
        · show (t.heap ++ [CFile.new])[i]? = _
          rw [List.getElem?_append_left (Nat.lt_of_lt_of_le hi h.len)]
          exact h.heap i hi
        · rw [building_set] at hl'
          split at hl'
          · cases hl'
            rcases List.mem_cons.mp hq with rfl | hq
            · exact h.len
            · exact h.handles m hm l hl q hq
          · exact h.handles m' hm' l' hl' q hq
        · rw [building_set, if_neg hne]
          exact h.building

theorem Kept.finalize {c : OffsetCodec} {s t t' : ArchStore} {ids : List LayerName}
    {n m : LayerName} (h : Kept s ids n t) (hm : m ∈ ids) (hn : n ∉ ids)
    (hf : t.finalize c m = .ok t') : Kept s ids n t' := by
  have hne : n ≠ m := fun e => hn (e ▸ hm)
  unfold ArchStore.finalize at hf
  split at hf
  · cases hf
  · dsimp only at hf
    split at hf
    · cases hf
    · cases hf
      have hb : ∀ k, (ArchStore.building { t with
          constr := t.constr.filter (fun q => q.1 ≠ m) } k) =
          if k = m then none else t.building k := fun k => lookup_filter_ne _ _ _
      refine ⟨h.len, h.heap, fun k hk l hl => ?_, ?_, ?_, h.rollup⟩
      · replace hl := (hb k).symm.trans hl
        split at hl
        · cases hl
        · exact h.handles k hk l hl
      · exact (hb n).trans ((if_neg hne).trans h.building)
      · show List.lookup n (_ :: _) = _
        rw [List.lookup_cons, beq_eq_false_iff_ne.mpr hne]
        exact h.file

theorem import_others {c : OffsetCodec} {s s' : ArchStore} {L : List ArchEvent} (hr : Run c s L)
    {pack : List PackEntry} {ids order : List LayerName} (ho : ∀ n ∈ order, n ∈ ids)
    (h : Pack.importLayers (.archive c) s pack ids order = .ok s') {n : LayerName} (hn : n ∉ ids) :
    PackSpec.Unchanged (.archive c) s s' n := by
  unfold Pack.importLayers at h
  obtain ⟨s1, h1, h⟩ := Out.of_bind_ok h
  obtain ⟨s2, h2, h3⟩ := Out.of_bind_ok h
  replace h1 : Out.forEach createNamed s ids = .ok s1 := h1
  obtain ⟨hnd, hfr⟩ := create_all_fresh ids h1
  obtain ⟨s1', e1, e2, e3, e4, e5⟩ := createAll s ids hnd hfr
  rw [h1] at e1
  cases e1
  have k1 : Kept s ids n s1 := ⟨by rw [e3], fun i _ => by rw [e3], fun m hm l hl q hq => (by
    rw [e5 m hm] at hl; cases hl; cases hq), e4 n hn, by rw [e2], by rw [e2]⟩
  have k2 : Kept s ids n s2 := Pack.entries_keep (B := .archive c) (Kept s ids n) pack
    (fun m hm _ t t' f b ht hw => ht.write hm hn hw) k1 h2
  have k3 : Kept s ids n s' := Pack.forEach_keep (f := ArchStore.finalize c) (Kept s ids n) order
    (fun m hm t t' ht hf => ht.finalize (ho m hm) hn hf) k2 h3
  exact unchanged k3.building k3.file k3.rollup (fun m hm q hq =>
    k3.heap q.2 ((hr.inv.files n m hm).2.1 q.1 q.2 hq))

end ArchStore

/-! ### Directories -/

namespace DirLayers

theorem files_create (s : DirLayers) (m n : LayerName) :
    (s.create m).files n = if n = m ∧ s.files m = none then some [] else s.files n := by
  unfold create
  cases hm : s.files m with
  | some x => simp
  | none =>
    show List.lookup n (_ :: _) = _
    rw [List.lookup_cons]
    by_cases e : n = m
    · simp [e]
    · rw [beq_eq_false_iff_ne.mpr e, if_neg (fun h => e h.1)]
      rfl

theorem files_write {trunc : Bool} {s s' : DirLayers} {m n : LayerName} {f : FileName} {b : Bytes}
    (h : s.write trunc m f b = .ok s') (hne : n ≠ m) : s'.files n = s.files n := by
  unfold write at h
  split at h
  · cases h
  · cases h
    show List.lookup n (_ :: _) = _
    rw [List.lookup_cons, beq_eq_false_iff_ne.mpr hne]
    rfl

theorem finalize_same {s s' : DirLayers} {m : LayerName} (h : s.finalize m = .ok s') : s' = s := by
  unfold finalize at h
  split at h
  · cases h
  · cases h; rfl

theorem unchanged {trunc : Bool} {s s' : DirLayers} {n : LayerName} (h : s'.files n = s.files n) :
    PackSpec.Unchanged (.directory trunc) s s' n := by
  have hc : ∀ f, s'.content n f = s.content n f := fun f => by unfold content; rw [h]
  have hd : s'.directoryExists n = s.directoryExists n := by unfold directoryExists; rw [h]
  have he : ∀ f, s'.fileExists n f = s.fileExists n f := fun f => by unfold fileExists; rw [hc]
  have hm : ∀ f, s'.map n f = s.map n f := fun f => by unfold DirLayers.map; rw [hc]
  have hs : ∀ f, s'.size n f = s.size n f := fun f => by unfold size; rw [hc]
  refine ⟨hd, fun f => ⟨congrArg Out.ok (he f), hm f, hs f⟩, ?_⟩
  show defaultLayerParent (s'.directoryExists n) (.ok (s'.fileExists n _)) (s'.map n _) =
    defaultLayerParent (s.directoryExists n) (.ok (s.fileExists n _)) (s.map n _)
  rw [hd, he, hm]

/-- A layer that no entry of the pack is about stays, if it is there or not wanted. -/
theorem import_others {trunc : Bool} {s s' : DirLayers} {pack : List PackEntry}
    {ids order : List LayerName}
    (h : Pack.importLayers (.directory trunc) s pack ids order = .ok s') {n : LayerName}
    (hn : n ∉ ids ∨ s.directoryExists n = true ∧ ∀ e ∈ pack, e.path.head? ≠ some (nameString n)) :
    PackSpec.Unchanged (.directory trunc) s s' n := by
  unfold Pack.importLayers at h
  obtain ⟨s1, h1, h⟩ := Out.of_bind_ok h
  obtain ⟨s2, h2, h3⟩ := Out.of_bind_ok h
  let F : DirLayers → Prop := fun t => t.files n = s.files n
  have k1 : F s1 := Pack.forEach_keep (f := fun (s : DirLayers) n => Out.ok (s.create n)) F ids
    (fun m hm t t' ht he => by
      cases he
      show (t.create m).files n = _
      rw [files_create]
      rw [if_neg]
      · exact ht
      · rintro ⟨rfl, h0⟩
        rcases hn with hn | ⟨hn, -⟩
        · exact hn hm
        · unfold directoryExists at hn
          rw [← show t.files n = s.files n from ht, h0] at hn
          cases hn) rfl h1
  have k2 : F s2 := Pack.entries_keep (B := .directory trunc) F pack
    (fun m hm he t t' f b ht hw => by
      refine (files_write (trunc := trunc) hw (fun e => ?_)).trans ht
      subst e
      rcases hn with hn | ⟨-, hn⟩
      · exact hn hm
      · obtain ⟨e, h4, h5⟩ := he
        exact hn e h4 h5) k1 h2
  have k3 : F s' := Pack.forEach_keep (f := DirLayers.finalize) F order
    (fun m hm t t' ht hf => by rw [finalize_same hf]; exact ht) k2 h3
  exact unchanged k3

end DirLayers

/-! ### Memory -/

namespace MemLayers

theorem files_set (s : MemLayers) (m n : LayerName) (fs : List (FileName × Option Bytes)) :
    (s.setFiles m fs).files n = if n = m then some fs else s.files n := by
  show List.lookup n (_ :: _) = _
  rw [List.lookup_cons, lookup_filter_ne]
  by_cases e : n = m
  · simp [e]
  · rw [beq_eq_false_iff_ne.mpr e, if_neg e, if_neg e]
    rfl

theorem files_write {s s' : MemLayers} {m n : LayerName} {f : FileName} {b : Bytes}
    (h : s.write m f b = .ok s') (hne : n ≠ m) : s'.files n = s.files n := by
  unfold write at h
  obtain ⟨t, h1, h2⟩ := Out.of_bind_ok h
  have ht : t.files n = s.files n := by
    unfold getFile at h1
    split at h1
    · cases h1
    · split at h1
      · cases h1; rfl
      · cases h1; rw [files_set, if_neg hne]
  split at h2
  · cases h2
  · cases h2
    rw [files_set, if_neg hne, ht]

theorem unchanged {s s' : MemLayers} {n : LayerName} (h : s'.files n = s.files n) :
    PackSpec.Unchanged .memory s s' n := by
  have hc : ∀ f, s'.content n f = s.content n f := fun f => by unfold content; rw [h]
  have hd : s'.directoryExists n = s.directoryExists n := by unfold directoryExists; rw [h]
  have he : ∀ f, s'.fileExists n f = s.fileExists n f := fun f => by unfold fileExists; rw [h]
  have hm : ∀ f, s'.map n f = s.map n f := fun f => by unfold MemLayers.map; rw [hc]
  have hs : ∀ f, s'.size n f = s.size n f := fun f => by unfold size; rw [hc]
  refine ⟨hd, fun f => ⟨congrArg Out.ok (he f), hm f, hs f⟩, ?_⟩
  show defaultLayerParent (s'.directoryExists n) (.ok (s'.fileExists n _)) (s'.map n _) =
    defaultLayerParent (s.directoryExists n) (.ok (s.fileExists n _)) (s.map n _)
  rw [hd, he, hm]

/-- The files of a layer that no entry of the pack is about, after an import. -/
theorem import_files_eq {s s' : MemLayers} {pack : List PackEntry} {ids order : List LayerName}
    (h : Pack.importLayers .memory s pack ids order = .ok s') {n : LayerName}
    (hn : n ∈ ids → ∀ e ∈ pack, e.path.head? ≠ some (nameString n)) :
    s'.files n = if n ∈ ids then some [] else s.files n := by
  unfold Pack.importLayers at h
  obtain ⟨s1, h1, h⟩ := Out.of_bind_ok h
  obtain ⟨s2, h2, h3⟩ := Out.of_bind_ok h
  let F : MemLayers → Prop := fun t => t.files n = if n ∈ ids then some [] else s.files n
  have k1 : F s1 := by
    have : ∀ (l : List LayerName) (t t' : MemLayers),
        Out.forEach (fun (s : MemLayers) n => Out.ok (s.create n)) t l = .ok t' →
        t'.files n = if n ∈ l then some [] else t.files n := by
      intro l
      induction l with
      | nil => intro t t' h; cases h; simp
      | cons m l ih =>
        intro t t' h
        rw [Out.forEach_cons] at h
        obtain ⟨t1, h4, h5⟩ := Out.of_bind_ok h
        cases h4
        rw [ih _ _ h5]
        unfold create
        rw [files_set]
        by_cases e1 : n ∈ l
        · simp [e1]
        · by_cases e2 : n = m <;> simp [e1, e2]
    exact this ids s s1 h1
  have k2 : F s2 := Pack.entries_keep (B := .memory) F pack
    (fun m hm he t t' f b ht hw => by
      refine (files_write hw (fun e => ?_)).trans ht
      subst e
      obtain ⟨e, h4, h5⟩ := he
      exact hn hm e h4 h5) k1 h2
  exact Pack.forEach_keep (f := fun (s : MemLayers) _ => Out.ok s) F order
    (fun m hm t t' ht hf => by cases hf; exact ht) k2 h3

end MemLayers

end Verif
