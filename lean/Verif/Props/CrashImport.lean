import Verif.Props.CrashArchive
import Verif.Props.PackIds

/-!
C52 for imports: what a store has while layers are imported, and after an import that failed or
was cut off.
-/

namespace Verif

open PackSpec

namespace Pack

theorem importEntry_cases {B : Backend} {ids : List LayerName} {s s' : B.State} {e : PackEntry}
    (h : importEntry B (ids.map nameString) s e = .ok s') :
    s' = s ∨ ∃ m ∈ ids, ∃ f, e.path.head? = some (nameString m) ∧ fileName e.path = some f ∧
      e.isFile = true ∧ B.write s m f e.content = .ok s' := by
  unfold importEntry at h
  split at h
  · cases h
  · rename_i f hf
    dsimp only at h
    split at h
    · rename_i hid
      obtain ⟨m, hm, hmid⟩ := List.mem_map.mp hid
      obtain ⟨n, hn, h⟩ := Out.of_bind_ok h
      have hnm : n = m := by
        rw [← hmid, stringToName_nameString] at hn
        cases hn; rfl
      have hhead : e.path.head? = some (nameString m) := by
        unfold first at hmid
        cases hh : e.path.head? with
        | none =>
          rw [hh] at hmid
          replace hmid : nameString m = "" := hmid
          have hl := nameToString_length m
          rw [← textOf_nameString, hmid] at hl
          exact absurd hl (by decide)
        | some x =>
          rw [hh] at hmid
          exact congrArg some hmid.symm
      split at h
      · rename_i hif
        subst hnm
        exact Or.inr ⟨n, hm, f, hhead, hf, hif, h⟩
      · cases h; exact Or.inl rfl
    · cases h; exact Or.inl rfl

/-- What creating, writing and finalizing keep is kept during an import. -/
theorem Midway.keep {B : Backend} {s s' : B.State} {pack : List PackEntry}
    {ids order : List LayerName} (F G : B.State → Prop)
    (h : Midway B s pack ids order s')
    (hc : ∀ k t, Out.forEach B.create s (ids.take k) = .ok t → F t)
    (hg : ∀ t, Out.forEach B.create s ids = .ok t → G t)
    (hw : ∀ e ∈ pack, ∀ i m, m ∈ ids → ∀ f, e.path.head? = some (nameString m) →
      fileName e.path = some f → ∀ t t', G t → B.write t m f (e.content.take i) = .ok t' → G t')
    (hf : ∀ m ∈ order, ∀ t t', G t → B.finalize t m = .ok t' → G t') : F s' ∨ G s' := by
  have hentry : ∀ e ∈ pack, ∀ i t t', G t →
      importEntry B (ids.map nameString) t { e with content := e.content.take i } = .ok t' → G t' := by
    intro e he i t t' ht h
    rcases importEntry_cases h with rfl | ⟨m, hm, f, h1, h2, _, h3⟩
    · exact ht
    · exact hw e he i m hm f h1 h2 t t' ht h3
  have hentries : ∀ l, (∀ e ∈ l, e ∈ pack) → ∀ t t', G t →
      Out.forEach (importEntry B (ids.map nameString)) t l = .ok t' → G t' := by
    intro l hl t t' ht h
    refine forEach_keep G l (fun e he t t' ht h => ?_) ht h
    refine hentry e (hl e he) e.content.length t t' ht ?_
    rw [List.take_length]
    exact h
  cases h with
  | creating k h => exact Or.inl (hc k _ h)
  | writing k h1 h2 =>
    exact Or.inr (hentries _ (fun e he => List.mem_of_mem_take he) _ _ (hg _ h1) h2)
  | cut k e i h1 h2 h3 h4 =>
    refine Or.inr (hentry e (List.mem_of_getElem? h3) i _ _ ?_ h4)
    exact hentries _ (fun e he => List.mem_of_mem_take he) _ _ (hg _ h1) h2
  | finalizing k h1 h2 h3 =>
    refine Or.inr (forEach_keep G _ (fun m hm => hf m (List.mem_of_mem_take hm)) ?_ h3)
    exact hentries _ (fun e he => he) _ _ (hg _ h1) h2

end Pack

/-! ### Other layers -/

theorem ArchStore.Kept.created {s s1 : ArchStore} {ids : List LayerName} {n : LayerName}
    (h1 : Out.forEach createNamed s ids = .ok s1) (hn : n ∉ ids) : Kept s ids n s1 := by
  obtain ⟨hnd, hfr⟩ := create_all_fresh ids h1
  obtain ⟨s1', e1, e2, e3, e4, e5⟩ := createAll s ids hnd hfr
  rw [h1] at e1
  cases e1
  exact ⟨by rw [e3], fun i _ => by rw [e3], fun m hm l hl q hq => (by
    rw [e5 m hm] at hl; cases hl; cases hq), e4 n hn, by rw [e2], by rw [e2]⟩

theorem ArchStore.Kept.unchanged {c : OffsetCodec} {s s' : ArchStore} {L : List ArchEvent}
    (hr : Run c s L) {ids : List LayerName} {n : LayerName} (k : Kept s ids n s') :
    PackSpec.Unchanged (.archive c) s s' n :=
  ArchStore.unchanged k.building k.file k.rollup (fun m hm q hq =>
    k.heap q.2 ((hr.inv.files n m hm).2.1 q.1 q.2 hq))

/-- C52 for imports: at every moment of an import, and after an import that failed or was cut off
at any point, the layers that are not imported are as before. -/
theorem C52_import_others {K : StoreKind} {s s' : K.backend.State} (h : K.Reached s)
    {pack : List PackEntry} {ids order : List LayerName} (ho : ∀ n ∈ order, n ∈ ids)
    (hm : Pack.Midway K.backend s pack ids order s') {n : LayerName} (hn : n ∉ ids) :
    Unchanged K.backend s s' n := by
  have hne : ∀ m ∈ ids, n ≠ m := fun m hm e => hn (e ▸ hm)
  cases K with
  | directory t =>
    let F : DirLayers → Prop := fun u => u.files n = s.files n
    have hc : ∀ l, (∀ m ∈ l, m ∈ ids) → ∀ u : DirLayers,
        Out.forEach (fun (s : DirLayers) n => Out.ok (s.create n)) s l = .ok u → F u := by
      intro l hl u hu
      refine Pack.forEach_keep (f := fun (s : DirLayers) n => Out.ok (s.create n)) F l
        (fun m hm u u' hu h => ?_) rfl hu
      cases h
      show (u.create m).files n = _
      rw [DirLayers.files_create, if_neg (fun e => hne m (hl m hm) e.1)]
      exact hu
    have := Pack.Midway.keep (B := .directory t) F F hm
      (fun k u hu => hc _ (fun m hm => List.mem_of_mem_take hm) u hu) (hc ids (fun _ h => h))
      (fun e _ i m hm f _ _ u u' hu hw =>
        (DirLayers.files_write (trunc := t) hw (hne m hm)).trans hu)
      (fun m _ u u' hu hf => by rw [DirLayers.finalize_same hf]; exact hu)
    exact DirLayers.unchanged (this.elim id id)
  | memory =>
    let F : MemLayers → Prop := fun u => u.files n = s.files n
    have hc : ∀ l, (∀ m ∈ l, m ∈ ids) → ∀ u : MemLayers,
        Out.forEach (fun (s : MemLayers) n => Out.ok (s.create n)) s l = .ok u → F u := by
      intro l hl u hu
      refine Pack.forEach_keep (f := fun (s : MemLayers) n => Out.ok (s.create n)) F l
        (fun m hm u u' hu h => ?_) rfl hu
      cases h
      show (u.create m).files n = _
      rw [MemLayers.create, MemLayers.files_set, if_neg (hne m (hl m hm))]
      exact hu
    have := Pack.Midway.keep (B := .memory) F F hm
      (fun k u hu => hc _ (fun m hm => List.mem_of_mem_take hm) u hu) (hc ids (fun _ h => h))
      (fun e _ i m hm f _ _ u u' hu hw => (MemLayers.files_write hw (hne m hm)).trans hu)
      (fun m _ u u' hu hf => by cases hf; exact hu)
    exact MemLayers.unchanged (this.elim id id)
  | archive c =>
    obtain ⟨L, hr⟩ := h
    have := Pack.Midway.keep (B := .archive c) (fun u => ∃ k, ArchStore.Kept s (ids.take k) n u)
      (ArchStore.Kept s ids n) hm
      (fun k u hu => ⟨k, ArchStore.Kept.created hu (fun h => hn (List.mem_of_mem_take h))⟩)
      (fun u hu => ArchStore.Kept.created hu hn)
      (fun e _ i m hm f _ _ u u' hu hw => hu.write hm hn hw)
      (fun m hm u u' hu hf => hu.finalize (ho m hm) hn hf)
    rcases this with ⟨k, h⟩ | h
    · exact h.unchanged hr
    · exact h.unchanged hr

/-! ### Layers that are imported again -/

theorem DirLayers.unchanged_content {trunc : Bool} {s s' : DirLayers} {n : LayerName}
    (hd : s'.directoryExists n = s.directoryExists n) (hc : ∀ f, s'.content n f = s.content n f) :
    PackSpec.Unchanged (.directory trunc) s s' n := by
  have he : ∀ f, s'.fileExists n f = s.fileExists n f := fun f => by unfold fileExists; rw [hc]
  have hm : ∀ f, s'.map n f = s.map n f := fun f => by unfold DirLayers.map; rw [hc]
  have hs : ∀ f, s'.size n f = s.size n f := fun f => by unfold size; rw [hc]
  refine ⟨hd, fun f => ⟨congrArg Out.ok (he f), hm f, hs f⟩, ?_⟩
  show defaultLayerParent (s'.directoryExists n) (.ok (s'.fileExists n _)) (s'.map n _) =
    defaultLayerParent (s.directoryExists n) (.ok (s.fileExists n _)) (s.map n _)
  rw [hd, he, hm]

/-- Overwriting a file with a part of its own contents. -/
theorem DirLayers.rewrite {t t' : DirLayers} {n : LayerName} {f : FileName} {b : Bytes} {i : Nat}
    (hc : t.content n f = some b) (h : t.write false n f (b.take i) = .ok t') :
    t'.directoryExists n = t.directoryExists n ∧ ∀ g, t'.content n g = t.content n g := by
  unfold DirLayers.write at h
  unfold content at hc
  cases hf : t.files n with
  | none => rw [hf] at h; cases h
  | some fs =>
    rw [hf] at h hc
    replace hc : fs.lookup f = some b := hc
    dsimp only at h
    cases h
    have hfs : (DirLayers.mk ((n, (f, b.take i ++ (if false = true then [] else
        ((fs.lookup f).getD []).drop (b.take i).length)) :: fs) :: t.layers)).files n =
        some ((f, b) :: fs) := by
      show List.lookup n (_ :: _) = _
      rw [List.lookup_cons, beq_self_eq_true, hc, if_neg (by decide), Option.getD_some]
      have : b.take i ++ b.drop (b.take i).length = b := by
        rw [List.length_take]
        rcases Nat.le_total i b.length with h | h
        · rw [Nat.min_eq_left h, List.take_append_drop]
        · rw [Nat.min_eq_right h, List.take_of_length_le h, List.drop_length, List.append_nil]
      rw [this]
    refine ⟨by unfold directoryExists; rw [hfs, hf]; rfl, fun g => ?_⟩
    unfold content
    rw [hfs, hf]
    show List.lookup g ((f, b) :: fs) = List.lookup g fs
    rw [List.lookup_cons]
    by_cases e : g = f
    · subst e; rw [beq_self_eq_true, hc]
    · rw [beq_eq_false_iff_ne.mpr e]

/-- C52 for imports into a directory store: if files are overwritten without truncation, then
importing a layer again, with the same contents, leaves its files as they are at every moment. -/
theorem C52_import_again {s s' : DirLayers} {pack : List PackEntry} {ids order : List LayerName}
    (hm : Pack.Midway (.directory false) s pack ids order s') {n : LayerName}
    (hn : s.directoryExists n = true)
    (hp : ∀ e ∈ pack, e.path.head? = some (nameString n) → ∀ f, Pack.fileName e.path = some f →
      s.content n f = some e.content) : Unchanged (.directory false) s s' n := by
  let F : DirLayers → Prop := fun u => u.directoryExists n = s.directoryExists n ∧
    ∀ f, u.content n f = s.content n f
  have hc : ∀ l, ∀ u : DirLayers,
      Out.forEach (fun (s : DirLayers) n => Out.ok (s.create n)) s l = .ok u → F u := by
    intro l u hu
    refine Pack.forEach_keep (f := fun (s : DirLayers) n => Out.ok (s.create n)) F l
      (fun m hm u u' hu h => ?_) ⟨rfl, fun _ => rfl⟩ hu
    cases h
    have : (u.create m).files n = u.files n := by
      rw [DirLayers.files_create, if_neg]
      rintro ⟨rfl, h0⟩
      have h1 := hu.1
      unfold DirLayers.directoryExists at h1 hn
      rw [h0, hn] at h1
      cases h1
    refine ⟨?_, fun f => ?_⟩
    · rw [← hu.1]; unfold DirLayers.directoryExists; rw [this]
    · rw [← hu.2 f]; unfold DirLayers.content; rw [this]
  have := Pack.Midway.keep (B := .directory false) F F hm (fun k u hu => hc _ u hu) (hc ids)
    (fun e he i m hm f h1 h2 u u' hu hw => by
      by_cases e1 : m = n
      · subst e1
        obtain ⟨h3, h4⟩ := DirLayers.rewrite (by rw [hu.2 f]; exact hp e he h1 f h2) hw
        exact ⟨h3.trans hu.1, fun g => (h4 g).trans (hu.2 g)⟩
      · have := DirLayers.files_write (trunc := false) hw (Ne.symm e1)
        refine ⟨?_, fun f => ?_⟩
        · rw [← hu.1]; unfold DirLayers.directoryExists; rw [this]
        · rw [← hu.2 f]; unfold DirLayers.content; rw [this])
    (fun m _ u u' hu hf => by rw [DirLayers.finalize_same hf]; exact hu)
  have hF : F s' := this.elim id id
  exact DirLayers.unchanged_content hF.1 hF.2

/-- Not C52: if opening a file truncates it, then a crash while a layer that is there is imported
again may empty one of its files. -/
theorem C52_import_again_wrong {s : DirLayers} {n : LayerName} (hn : s.directoryExists n = true)
    {f : FileName} (hf : f ≠ ".." ∧ f ≠ "." ∧ f ≠ "/") (b : Bytes) (pack : List PackEntry) :
    ∃ s', Pack.Midway (.directory true) s (⟨[nameString n, f], true, b⟩ :: pack) [n] [n] s' ∧
      (Backend.directory true).map s' n f = .ok [] := by
  have hc : s.create n = s := by
    unfold DirLayers.create
    unfold DirLayers.directoryExists at hn
    cases h : s.files n with
    | none => rw [h] at hn; cases hn
    | some fs => rfl
  have hw : ∃ s', s.write true n f [] = .ok s' ∧ s'.content n f = some [] := by
    unfold DirLayers.directoryExists at hn
    unfold DirLayers.write
    cases h : s.files n with
    | none => rw [h] at hn; cases hn
    | some fs =>
      refine ⟨_, rfl, ?_⟩
      unfold DirLayers.content DirLayers.files
      simp
  obtain ⟨s', h1, h2⟩ := hw
  refine ⟨s', .cut 0 ⟨[nameString n, f], true, b⟩ 0 (s1 := s) (s2 := s) ?_ rfl rfl ?_, ?_⟩
  · show (Out.ok (s.create n)).bind _ = _
    rw [hc]; rfl
  · unfold Pack.importEntry
    have hfn : Pack.fileName [nameString n, f] = some f := by
      unfold Pack.fileName
      show (if f = ".." ∨ f = "." ∨ f = "/" then none else some f) = some f
      rw [if_neg]
      rintro (h | h | h)
      · exact hf.1 h
      · exact hf.2.1 h
      · exact hf.2.2 h
    rw [hfn]
    dsimp only
    rw [show (Pack.first [nameString n, f]).getD "" = nameString n from rfl,
      if_pos (by exact List.mem_map_of_mem (List.mem_singleton_self n)), stringToName_nameString]
    exact h1
  · show s'.map n f = _
    unfold DirLayers.map
    rw [h2]

/-! ### Imports into an archive store -/

namespace ArchStore

theorem CLater.trans {c : OffsetCodec} {s s' s'' : ArchStore} {L L' : List Happening}
    (h : CLater c s L s') (h' : CLater c s' L' s'') : ∃ L'', CLater c s L'' s'' := by
  induction h' with
  | now => exact ⟨L, h⟩
  | step _ hs ih =>
    obtain ⟨L'', h1⟩ := ih
    exact ⟨_, .step h1 hs⟩

theorem CLater.call {c : OffsetCodec} {s s' : ArchStore} {E : List ArchEvent}
    (h : Step c s [] s' E) : ∃ L, CLater c s L s' := ⟨_, .step .now (.call h)⟩

theorem write_later {c : OffsetCodec} {s s' : ArchStore} {n : LayerName} {f : FileName} {b : Bytes}
    (h : s.write n f b = .ok s') : ∃ L, CLater c s L s' := by
  unfold ArchStore.write at h
  obtain ⟨⟨hd, u⟩, h1, h⟩ := Out.of_bind_ok h
  obtain ⟨hd', h2, h⟩ := Out.of_bind_ok h
  have hg : ∃ L, CLater c s L u := by
    by_cases e : hd = .construction s.heap.length
    · subst e
      cases hk : FileName.kind f with
      | ok k => exact CLater.call (.getNew hk h1)
      | err => unfold getFile at h1; rw [hk] at h1; cases h1
      | panic => unfold getFile at h1; rw [hk] at h1; cases h1
    · exact CLater.call (.getOld h1 e)
  obtain ⟨L, hg⟩ := hg
  cases hd' with
  | persistent m k => cases h
  | construction i =>
    obtain ⟨⟨m, v⟩, h3, h4⟩ := Out.of_bind_ok h
    obtain ⟨L1, h5⟩ := CLater.call (c := c) (.write h3)
    obtain ⟨L2, h6⟩ := CLater.call (c := c) (.sync h4)
    obtain ⟨L3, h7⟩ := hg.trans h5
    exact h7.trans h6
  | rollup m =>
    obtain ⟨d, h3, h4⟩ := Out.of_bind_ok h
    cases h4
    obtain ⟨r, h5⟩ := writeSync_ok h3
    obtain ⟨h6, rfl⟩ := setRollup_eq h5
    obtain ⟨L1, h7⟩ := CLater.call (c := c) (.rollup (r := r) h3 (getRollup_of
      (d := { u.disk with rollups := (m, rollupBytes r) :: u.disk.rollups }) h6 lookup_cons_same))
    exact hg.trans h7

/-- Beside C52: an import into an archive store is made of calls on it, so that `C52_archive_files`
and `C52_archive_rollup_partial` are also about imports and crashes during them. -/
theorem import_later {c : OffsetCodec} {s s' : ArchStore} {pack : List PackEntry}
    {ids order : List LayerName} (h : Pack.Midway (.archive c) s pack ids order s') :
    ∃ L, CLater c s L s' := by
  let F : ArchStore → Prop := fun t => ∃ L, CLater c s L t
  have hc : ∀ l, ∀ t, Out.forEach createNamed s l = .ok t → F t := fun l t ht =>
    Pack.forEach_keep (f := createNamed) F l (fun m _ t t' ht h => by
      obtain ⟨L, ht⟩ := ht
      obtain ⟨L', h'⟩ := CLater.call (c := c) (.create h)
      exact ht.trans h') ⟨_, .now⟩ ht
  have := Pack.Midway.keep (B := .archive c) F F h (fun k t ht => hc _ t ht) (hc ids)
    (fun e _ i m _ f _ _ t t' ht hw => by
      obtain ⟨L, ht⟩ := ht
      obtain ⟨L', h'⟩ := write_later (c := c) hw
      exact ht.trans h')
    (fun m _ t t' ht hf => by
      obtain ⟨L, ht⟩ := ht
      obtain ⟨L', h'⟩ := CLater.call (c := c) (.finalize hf)
      exact ht.trans h')
  exact this.elim id id

end ArchStore

/-! ### Examples -/

namespace Witness.CrashImport

instance (trunc : Bool) : DecidableEq (Backend.directory trunc).State :=
  inferInstanceAs (DecidableEq DirLayers)

/-- Two layers. -/
def n1 : LayerName := ⟨1, 2, 3, 4, 5⟩

def n2 : LayerName := ⟨5, 4, 3, 2, 1⟩

/-- A file of one layer, and two of another. -/
def pack : List PackEntry :=
  [⟨[nameString n1, "a.bin"], true, [1, 2, 3]⟩, ⟨[nameString n2], false, []⟩,
    ⟨[nameString n2, "a.bin"], true, [4, 5]⟩, ⟨[nameString n2, "b.bin"], true, [6]⟩]

def store : DirLayers := ⟨[(n1, [("a.bin", [1, 2, 3])])]⟩

def created : DirLayers := ⟨[(n2, []), (n1, [("a.bin", [1, 2, 3])])]⟩

/-- An import that was cut off in the middle of a file: another layer is there, the second file of
the new one has no contents yet, and the last one is missing. -/
example : ∃ s', Pack.Midway (.directory true) store pack [n2] [n2] s' ∧
    (Backend.directory true).map s' n1 "a.bin" = .ok [1, 2, 3] ∧
    (Backend.directory true).map s' n2 "a.bin" = .ok [4] ∧
    (Backend.directory true).fileExists s' n2 "b.bin" = .ok false := by
  refine ⟨⟨[(n2, [("a.bin", [4])]), (n2, []), (n1, [("a.bin", [1, 2, 3])])]⟩,
    .cut 2 ⟨[nameString n2, "a.bin"], true, [4, 5]⟩ 1 (s1 := created)
      (s2 := created) ?_ ?_ rfl ?_, ?_, ?_, ?_⟩ <;> decide +kernel

/-- The conditions of `C52_import_again`. -/
example : store.directoryExists n1 = true ∧ ∀ e ∈ pack, e.path.head? = some (nameString n1) →
    ∀ f, Pack.fileName e.path = some f → store.content n1 f = some e.content := by
  refine ⟨by decide, fun e he h f hf => ?_⟩
  have hne : nameString n2 ≠ nameString n1 := by decide +kernel
  simp only [pack, List.mem_cons, List.not_mem_nil, or_false] at he
  rcases he with rfl | rfl | rfl | rfl
  · have : Pack.fileName [nameString n1, "a.bin"] = some "a.bin" := by decide +kernel
    rw [this] at hf
    cases hf
    decide
  · exact absurd (Option.some.inj h) hne
  · exact absurd (Option.some.inj h) hne
  · exact absurd (Option.some.inj h) hne

/-- An archive store with a stored layer, on which a crash and a registration follow. -/
example (c : OffsetCodec) : ∃ s s' L L' r, ArchStore.CLater c {} L s ∧ s.disk.layerExists n1 = true ∧
    ArchStore.CLater c s L' s' ∧ L' = [.call (.rolled n1 r), .crash] := by
  have h1 : ArchStore.Step c {} [] (ArchStore.setBuilding {} n1 []) [.created n1] := .create rfl
  have hf : ∃ s, (ArchStore.setBuilding {} n1 []).finalize c n1 = .ok s ∧
      s.disk.layerExists n1 = true := by
    refine ⟨_, rfl, ?_⟩
    unfold ArchDir.layerExists ArchDir.file ArchDir.storeLayerFile
    simp
  obtain ⟨s, h2, h3⟩ := hf
  have h4 : ArchStore.CLater c {} _ s := .step (.step .now (.call h1)) (.call (.finalize h2))
  have h5 : ∃ d, RollupFile.writeSync s.disk n1 (rollupFile n2) = .ok d ∧
      d.getRollup n1 = .ok (some n2) := by
    have h6 : ArchDir.secondLine (utf8Lossy (ArchStore.rollupBytes n2)) = .ok (nameToString n2) :=
      ArchStore.secondLine_two (ArchStore.lines_rollup n2)
    have h7 : RollupFile.writeSync s.disk n1 (ArchStore.rollupBytes n2) = s.disk.setRollup n1 n2 := by
      unfold RollupFile.writeSync
      rw [h6]
      show (stringToName (nameToString n2)).bind (fun r => s.disk.setRollup n1 r) = _
      rw [stringToName_nameToString]
      rfl
    have h8 : ∃ d, s.disk.setRollup n1 n2 = .ok d := by
      unfold ArchDir.layerExists at h3
      unfold ArchDir.setRollup
      cases hf : s.disk.file n1 with
      | none => rw [hf] at h3; cases h3
      | some b => exact ⟨_, rfl⟩
    obtain ⟨d, h8⟩ := h8
    refine ⟨d, h7.trans h8, ?_⟩
    obtain ⟨h9, rfl⟩ := ArchStore.setRollup_eq h8
    exact ArchStore.getRollup_of (d := { s.disk with rollups := (n1, ArchStore.rollupBytes n2) ::
      s.disk.rollups }) h9 ArchStore.lookup_cons_same
  obtain ⟨d, h5, h6⟩ := h5
  exact ⟨s, _, _, _, n2, h4, h3, .step (.step .now .crash) (.call (.rollup h5 h6)), rfl⟩

end Witness.CrashImport

end Verif
