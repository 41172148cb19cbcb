import Verif.Lemmas.ArchiveConc
import Verif.Props.Archive

/-!
Archive stores used by several tasks at once: C60.
-/

namespace Verif

open FileSpec ArchConc

/-- C60, as long as callers keep to the rules of `Begins`: no call panics, and the files of the
store and all its layers under construction are those of a store in which the same calls happened
one at a time; only a layer that is being finalized is still under construction there. What is
missing is what other callers need: `C60_poison_wrong`, `C60_lost_file_wrong`,
`C60_get_finalize_wrong` and `C60_flicker_wrong`. -/
theorem C60_one_at_a_time_partial {c : OffsetCodec} {s : ArchConc} {L : List ArchEvent}
    (h : ArchConc.Run true c s L) :
    s.panics = 0 ∧ s.poisoned = false ∧ ∃ a, ArchStore.Run c a L ∧ a.disk = s.store.disk ∧
      a.heap = s.store.heap ∧
      ∀ n, (∀ t m, s.tasks t ≠ some (.finalizing n m)) →
        a.building n = s.store.building n ∧ a.directoryExists n = s.store.directoryExists n ∧
        ∀ f, a.fileExists n f = s.store.fileExists n f := by
  obtain ⟨a, h⟩ := h.sim
  refine ⟨h.sound.2, h.sound.1, a, h.run, h.disk, h.heap, fun n hn => ?_⟩
  have e := h.same n hn
  refine ⟨e, ?_, fun f => ?_⟩
  · unfold ArchStore.directoryExists
    rw [e, h.disk]
  · unfold ArchStore.fileExists
    rw [e, h.disk]

/-- C60: a layer that was finalized while other calls were under way has the files that were
synced before, with what was written to them, and no others (as C41 says for calls one at a
time). -/
theorem C60_archived_files_partial {c : OffsetCodec} {s : ArchConc} {L : List ArchEvent}
    (h : ArchConc.Run true c s L) {n : LayerName} (hn : .finalized n ∈ L) {f : FileName}
    {k : FileKind} (hf : f.kind = .ok k) (hk : k ≠ FileKind.rollup) :
    s.store.getFile n f = .ok (.persistent n k, s.store) ∧
    s.store.fileExists n f = .ok (stored L n k).isSome ∧
    (stored L n k = none → s.store.handleMap c (.persistent n k) = .err) ∧
    (∀ b, stored L n k = some b →
      s.store.handleSize c (.persistent n k) = .ok b.length ∧
      s.store.handleMap c (.persistent n k) = .ok b) := by
  obtain ⟨a, h⟩ := h.sim
  obtain ⟨-, h2, -, h4, h5⟩ := C41_archived_files h.run hn hf hk
  have hab : a.building n = none := by
    obtain ⟨files, hb, -⟩ := h.run.inv.is_stored (beforeFinal_isSome.mpr hn)
    exact hb
  have hb : s.store.building n = none := by
    rw [← h.same n (fun t m ht => ?_)]
    · exact hab
    · obtain ⟨-, g, -⟩ := h.finalizing t n m ht
      rw [hab] at g
      cases g
  have hm : s.store.handleMap c (.persistent n k) = a.handleMap c (.persistent n k) := by
    show (s.store.disk.getStructureBytes c n k).bind _ = (a.disk.getStructureBytes c n k).bind _
    rw [h.disk]
  have hsz : s.store.handleSize c (.persistent n k) = a.handleSize c (.persistent n k) := by
    show s.store.disk.getStructureSize c n k = a.disk.getStructureSize c n k
    rw [h.disk]
  refine ⟨?_, ?_, fun hs => ?_, fun b hs => ?_⟩
  · unfold ArchStore.getFile
    rw [hf]
    show (if k = FileKind.rollup then _ else _) = _
    rw [if_neg hk, hb]
  · rw [← h2]
    unfold ArchStore.fileExists
    rw [hb, hab, h.disk]
  · rw [hm]
    exact (h4 hs).2.1
  · rw [hm, hsz]
    exact ⟨(h5 b hs).1, (h5 b hs).2.1⟩

/-- Beyond C60: a call that was the only one to panic is the last to create a layer or to make a
file. Once the lock is poisoned it stays so, whatever callers do; what still happens are writes to
files that callers have, archives of layers taken out of the map before, and rollups. -/
theorem C60_poisoned_forever {kept : Bool} {c : OffsetCodec} {s s' : ArchConc}
    {L L' : List ArchEvent} (h : Steps kept c s L s' L') (hp : s.poisoned = true) :
    s'.poisoned = true ∧ ∃ E, L' = E ++ L ∧ ∀ e ∈ E,
      (∀ n, e ≠ .created n) ∧ (∀ n k h, e ≠ .opened n k h) ∧
      ∀ n, e = .finalized n → ∃ t m, s.tasks t = some (.finalizing n m) := by
  suffices H : s'.poisoned = true ∧
      (∀ t n m, s'.tasks t = some (.finalizing n m) → s.tasks t = some (.finalizing n m)) ∧
      ∃ E, L' = E ++ L ∧ ∀ e ∈ E,
      (∀ n, e ≠ .created n) ∧ (∀ n k h, e ≠ .opened n k h) ∧
      ∀ n, e = .finalized n → ∃ t m, s.tasks t = some (.finalizing n m) from ⟨H.1, H.2.2⟩
  induction h with
  | refl => exact ⟨hp, fun _ _ _ h => h, [], rfl, by simp⟩
  | @step s₁ L₁ s₂ L₂ _ hs ih =>
    obtain ⟨h1, h2, E, h3, h4⟩ := ih
    have add : ∀ e, ((∀ n, e ≠ .created n) ∧ (∀ n k h, e ≠ .opened n k h) ∧
        ∀ n, e = .finalized n → ∃ t m, s.tasks t = some (.finalizing n m)) →
        ∃ E, e :: L₁ = E ++ L ∧ ∀ e ∈ E,
        (∀ n, e ≠ .created n) ∧ (∀ n k h, e ≠ .opened n k h) ∧
        ∀ n, e = .finalized n → ∃ t m, s.tasks t = some (.finalizing n m) := by
      intro e he
      refine ⟨e :: E, by rw [h3]; rfl, fun e' he' => ?_⟩
      rcases List.mem_cons.mp he' with rfl | he'
      · exact he
      · exact h4 e' he'
    have drop : ∀ t x, (∀ n m, x ≠ some (Task.finalizing n m)) → ∀ u n m,
        (s₁.setTask t x).tasks u = some (.finalizing n m) → s.tasks u = some (.finalizing n m) := by
      intro t x hx u n m hu
      by_cases e : u = t
      · subst e
        rw [setTask_same] at hu
        exact absurd hu (hx n m)
      · rw [setTask_other _ _ e] at hu
        exact h2 u n m hu
    cases hs with
    | createCheck _ _ _ => exact ⟨h1, drop _ _ (by rintro n m ⟨⟩), E, h3, h4⟩
    | createExists _ _ _ => exact ⟨h1, drop _ _ (by rintro n m ⟨⟩), E, h3, h4⟩
    | createInsert _ hp' _ => rw [h1] at hp'; cases hp'
    | createTaken _ hp' _ => rw [h1] at hp'; cases hp'
    | getOld hp' _ => rw [h1] at hp'; cases hp'
    | getCheck _ _ _ _ hp' _ _ => rw [h1] at hp'; cases hp'
    | getInsert _ hp' _ => rw [h1] at hp'; cases hp'
    | getGone _ hp' _ => rw [h1] at hp'; cases hp'
    | writeBytes _ hp' _ => rw [h1] at hp'; cases hp'
    | writeBytesTaken _ _ hp' _ => rw [h1] at hp'; cases hp'
    | write _ =>
      exact ⟨h1, h2, add _ ⟨by rintro n ⟨⟩, by rintro n k h ⟨⟩, by rintro n ⟨⟩⟩⟩
    | sync _ =>
      exact ⟨h1, h2, add _ ⟨by rintro n ⟨⟩, by rintro n k h ⟨⟩, by rintro n ⟨⟩⟩⟩
    | finalizeRemove _ _ hp' _ => rw [h1] at hp'; cases hp'
    | finalizeGone _ _ hp' _ => rw [h1] at hp'; cases hp'
    | @finalizeStore _ t n m ht _ =>
      refine ⟨h1, drop _ _ (by rintro n m ⟨⟩), add _ ⟨by rintro n ⟨⟩, by rintro n k h ⟨⟩, ?_⟩⟩
      rintro _ ⟨⟩
      exact ⟨t, m, h2 _ _ _ ht⟩
    | rollup _ _ =>
      exact ⟨h1, h2, add _ ⟨by rintro n ⟨⟩, by rintro n k h ⟨⟩, by rintro n ⟨⟩⟩⟩
    | startPoisoned _ _ => exact ⟨h1, drop _ _ (by rintro n m ⟨⟩), E, h3, h4⟩
    | goPoisoned _ _ _ => exact ⟨h1, drop _ _ (by rintro n m ⟨⟩), E, h3, h4⟩

/-! ### Callers that do not keep to the rules -/

namespace ArchConc

/-- A layer has been created. -/
theorem run_created (kept : Bool) (c : OffsetCodec) (n : LayerName) :
    ∃ s, Run kept c s [.created n] ∧ (∀ t, s.tasks t = none) ∧ s.poisoned = false ∧
      s.store = ({} : ArchStore).setBuilding n [] := by
  refine ⟨_, (Run.start.step (.createCheck (t := 0) (n := n) rfl
    (fun _ => .creating rfl rfl (fun t x h => by cases h)) rfl)).step
    (.createInsert (setTask_same _ _ _) rfl rfl), fun t => ?_, rfl, rfl⟩
  simp [setTask]

/-- A layer with an archive of no files has no files. -/
theorem fileExists_empty {c : OffsetCodec} {s : ArchStore} {n : LayerName} {f : FileName}
    {k : FileKind} (hf : f.kind = .ok k) (hk : k ≠ FileKind.rollup) (hb : s.building n = none)
    (hd : s.disk.file n = some (Archive.encode c [])) : s.fileExists n f = .ok false := by
  unfold ArchStore.fileExists
  rw [hf]
  show (if k = FileKind.rollup then _ else _) = _
  rw [if_neg hk, hb]
  obtain ⟨x, h1, h2⟩ := ArchDir.layerFileExists_eq (c := c) (files := [])
    ⟨List.nodup_nil, by decide⟩ hd k
  refine Eq.trans h1 ?_
  cases x with
  | false => rfl
  | true =>
    obtain ⟨y, hy⟩ := h2.mp rfl
    cases hy

theorem storeFiles_empty {c : OffsetCodec} {s : ArchStore} {n : LayerName}
    {m : List (FileKind × Nat)} (hf : ArchStore.finalizedFiles s.heap m = [])
    (hb : s.building n = none) (hd : s.disk.larch.lookup n = none) :
    (storeFiles c s n m).fileExists n "predicate_dictionary_blocks.tfc" = .ok false := by
  refine fileExists_empty (c := c) (k := 2) (by decide) (by decide) hb ?_
  simp [storeFiles, ArchDir.file, ArchDir.storeLayerFile, hf, hd]

end ArchConc

/-- C60 is false if a layer is created that is already under construction: no call is under way and
all callers have kept to the rules so far, but after that everything fails
(`C60_poisoned_forever`). Two tasks that import the same layer do that, and so does one that imports
a list with a layer twice, or imports a layer again after an import that failed with an error, whose
layers stay in the map. -/
theorem C60_poison_wrong (c : OffsetCodec) (n : LayerName) :
    ∃ s s', ArchConc.Run true c s [.created n] ∧ (∀ t, s.tasks t = none) ∧
      Steps false c s [.created n] s' [.created n] ∧ s'.poisoned = true := by
  obtain ⟨s, hr, ht, hp, hs⟩ := run_created true c n
  refine ⟨s, _, hr, ht, (Steps.refl.step (.createCheck (t := 1) (n := n) (ht 1)
    (fun h => by cases h) ?_)).step (.createTaken (t := 1) (n := n) rfl hp ?_), rfl⟩
  · rw [hs]; rfl
  · show (s.store.building n).isSome
    rw [hs, ArchStore.building_set, if_pos rfl]
    rfl

/-- C60 is false if a layer is finalized while another task asks for a file of it: the one that asks
panics and takes the store with it. -/
theorem C60_get_finalize_wrong (c : OffsetCodec) (n : LayerName) :
    ∃ s s', ArchConc.Run false c s [.created n] ∧ s.tasks 1 = some (.getting n 2) ∧
      s.tasks 2 = some (.finalizing n []) ∧ s.poisoned = false ∧
      Step false c s [.created n] s' [.created n] ∧ s'.poisoned = true := by
  obtain ⟨s, hr, ht, hp, hs⟩ := run_created false c n
  have hb : s.store.building n = some [] := by rw [hs, ArchStore.building_set, if_pos rfl]
  have e1 := hr.step (.getCheck (t := 1) (n := n) (f := "predicate_dictionary_blocks.tfc") (k := 2)
    (ht 1) (fun h => by cases h) (by decide) (by decide) hp hb rfl)
  have e2 := e1.step (.finalizeRemove (t := 2) (n := n) (m := [])
    (ht 2) (fun h => by cases h) hp hb)
  refine ⟨_, _, e2, rfl, rfl, hp, .getGone (t := 1) (n := n) (k := 2) rfl hp ?_, rfl⟩
  refine (lookup_filter_ne _ _ _).trans ?_
  rw [if_pos rfl]

/-- C60 is false for those who ask whether a layer exists while it is finalized, also if all callers
keep to the rules: it exists before and after, but not in between. -/
theorem C60_flicker_wrong (c : OffsetCodec) (n : LayerName) :
    ∃ s₁ s₂ s₃ L, ArchConc.Run true c s₁ L ∧ Step true c s₁ L s₂ L ∧
      Step true c s₂ L s₃ (.finalized n :: L) ∧ s₁.store.directoryExists n = true ∧
      s₂.store.directoryExists n = false ∧ s₃.store.directoryExists n = true := by
  obtain ⟨s, hr, ht, hp, hs⟩ := run_created true c n
  have hb : s.store.building n = some [] := by rw [hs, ArchStore.building_set, if_pos rfl]
  refine ⟨s, _, _, _, hr, .finalizeRemove (t := 1) (n := n) (m := []) (ht 1)
    (fun _ => .finalizing (by rw [hb]; rfl) (fun t x h => by rw [ht] at h; cases h)) hp hb,
    .finalizeStore (t := 1) (n := n) (m := []) rfl (by
      show ([] : Bytes).length < _
      decide), ?_, ?_, ?_⟩
  · unfold ArchStore.directoryExists
    rw [hb]
    rfl
  · unfold ArchStore.directoryExists
    rw [show ∀ d h, (ArchStore.mk d h (s.store.constr.filter (fun q => q.1 ≠ n))).building n = none
      from fun d h => (lookup_filter_ne _ _ _).trans (by rw [if_pos rfl]), hs]
    rfl
  · unfold ArchStore.directoryExists storeFiles
    rw [Bool.or_eq_true]
    right
    show (ArchDir.storeLayerFile s.store.disk n _).layerExists n = true
    rw [storeLayerFile_exists]
    simp

/-- Two tasks ask for a file of a layer that does not have it yet. One gets a file, writes to it and
syncs it, and then the other gets another file instead; when the layer is finalized, what was
synced is gone. -/
theorem C60_lost_file_wrong (c : OffsetCodec) (n : LayerName) (b : Bytes) :
    ∃ s, ArchConc.Run false c s [.finalized n, .opened n 2 1, .synced 0, .wrote 0 b,
        .opened n 2 0, .created n] ∧
      s.store.fileExists n "predicate_dictionary_blocks.tfc" = .ok false := by
  obtain ⟨s, hr, ht, hp, hs⟩ := run_created false c n
  obtain ⟨st, p, ts, pn⟩ := s
  replace hs : st = ({} : ArchStore).setBuilding n [] := hs
  subst hs
  have hb : (({} : ArchStore).setBuilding n []).building n = some [] := by
    rw [ArchStore.building_set, if_pos rfl]
  have e1 := hr.step (.getCheck (t := 1) (n := n) (f := "predicate_dictionary_blocks.tfc") (k := 2)
    (ht 1) (fun h => by cases h) (by decide) (by decide) hp hb rfl)
  have e2 := e1.step (.getCheck (t := 2) (n := n) (f := "predicate_dictionary_blocks.tfc") (k := 2)
    (ht 2) (fun h => by cases h) (by decide) (by decide) hp
    hb rfl)
  have e3 := e2.step (.getInsert (t := 1) (n := n) (k := 2) (m := [])
    rfl hp hb)
  have e4 := e3.step (.write (h := 0) (buf := b) (m := b.length)
    (s' := { insertFile (({} : ArchStore).setBuilding n []) n [] 2 CFile.new with heap := [.underConstruction b] }) (by
      rfl))
  have e5 := e4.step (.sync (h := 0)
    (s' := { insertFile (({} : ArchStore).setBuilding n []) n [] 2 CFile.new with heap := [.finalized b] }) (by
      rfl))
  have hb5 : (insertFile (({} : ArchStore).setBuilding n []) n [] 2 CFile.new).building n = some [(2, 0)] := by
    unfold insertFile
    rw [ArchStore.building_set, if_pos rfl]
    rfl
  have e6 := e5.step (.getInsert (t := 2) (n := n) (k := 2) (m := [(2, 0)])
    rfl hp hb5)
  have hb6 : (insertFile { insertFile (({} : ArchStore).setBuilding n []) n [] 2 CFile.new with heap := [.finalized b] } n
      [(2, 0)] 2 CFile.new).building n = some [(2, 1)] := by
    unfold insertFile
    rw [ArchStore.building_set, if_pos rfl]
    rfl
  have e7 := e6.step (.finalizeRemove (t := 1) (n := n) (m := [(2, 1)])
    rfl
    (fun h => by cases h) hp hb6)
  have hfin : ArchStore.finalizedFiles [.finalized b, CFile.new] [(2, 1)] = [] := rfl
  have e8 := e7.step (.finalizeStore (t := 1) (n := n) (m := [(2, 1)]) rfl (by
    show ((ArchStore.finalizedFiles [.finalized b, CFile.new] [(2, 1)]).map _).flatten.length < _
    rw [hfin]
    decide))
  refine ⟨_, e8, ?_⟩
  refine storeFiles_empty (m := [(2, 1)]) ?_ ?_ ?_
  · exact hfin
  · refine (lookup_filter_ne _ _ _).trans ?_
    rw [if_pos rfl]
  · rfl

/-! ### A run in which callers keep to the rules -/

/-- Two tasks ask for two files of a layer at once, the first writes and syncs its file, and while
the layer is finalized another one is created. -/
theorem ArchConc.example_run {n n' : LayerName} (hn : n' ≠ n) :
    ∃ s, ArchConc.Run true .plain s [.created n', .finalized n, .synced 1, .wrote 1 [7, 8],
      .opened n 2 1, .opened n 0 0, .created n] := by
  obtain ⟨s, hr, ht, hp, hs⟩ := run_created true .plain n
  obtain ⟨st, p, ts, pn⟩ := s
  replace hs : st = ({} : ArchStore).setBuilding n [] := hs
  subst hs
  have hb : (({} : ArchStore).setBuilding n []).building n = some [] := by
    rw [ArchStore.building_set, if_pos rfl]
  have ht' : ∀ t, ts t = none := ht
  have e1 := hr.step (.getCheck (t := 1) (n := n) (f := "predicate_dictionary_blocks.tfc") (k := 2)
    (ht 1) (fun _ => .getting (fun t x h => by rw [ht] at h; cases h)) (by decide) (by decide) hp
    hb rfl)
  have e2 := e1.step (.getCheck (t := 2) (n := n) (f := "node_dictionary_blocks.tfc") (k := 0)
    (ht 2) (fun _ => .getting (fun t x h => by
      by_cases e : t = 1
      · subst e
        cases h
        exact fun _ => ⟨2, rfl, by decide⟩
      · rw [setTask_other _ _ e, ht] at h
        cases h)) (by decide) (by decide) hp hb rfl)
  have e3 := e2.step (.getInsert (t := 2) (n := n) (k := 0) (m := []) rfl hp hb)
  have hb3 : (insertFile (({} : ArchStore).setBuilding n []) n [] 0 CFile.new).building n =
      some [(0, 0)] := by
    unfold insertFile
    rw [ArchStore.building_set, if_pos rfl]
    rfl
  have e4 := e3.step (.getInsert (t := 1) (n := n) (k := 2) (m := [(0, 0)]) rfl hp hb3)
  have e5 := e4.step (.write (h := 1) (buf := [7, 8]) rfl)
  have e6 := e5.step (.sync (h := 1) rfl)
  have hb6 : ∀ h, ({ insertFile (insertFile (({} : ArchStore).setBuilding n []) n [] 0 CFile.new) n
      [(0, 0)] 2 CFile.new with heap := h } : ArchStore).building n = some [(2, 1), (0, 0)] := by
    intro h
    refine (ArchStore.building_set _ n n _).trans ?_
    rw [if_pos rfl]
    rfl
  have none6 : ∀ t x, ((((ArchConc.mk
      (({} : ArchStore).setBuilding n []) p ts pn).setTask 1 (some (.getting n 2))).setTask 2
      (some (.getting n 0))).setTask 2 none |>.setTask 1 none).tasks t ≠ some x := by
    intro t x hx
    simp only [setTask, ht'] at hx
    split at hx
    · cases hx
    · split at hx
      · cases hx
      · cases hx
  have e7 := e6.step (.finalizeRemove (t := 3) (n := n) (m := [(2, 1), (0, 0)]) (ht 3)
    (fun _ => .finalizing ((congrArg Option.isSome (hb6 _)).trans rfl) (fun t x h =>
      absurd h (none6 t x))) hp (hb6 _))
  have e8 := e7.step (.createCheck (t := 4) (n := n') (ht 4) (fun _ => .creating (by
      refine (lookup_filter_ne _ _ _).trans ?_
      rw [if_neg hn]
      refine (ArchStore.building_set _ n n' _).trans ?_
      rw [if_neg hn]
      refine (ArchStore.building_set _ n n' _).trans ?_
      rw [if_neg hn]
      refine (ArchStore.building_set _ n n' _).trans ?_
      rw [if_neg hn]
      rfl) rfl (fun t x h => by
        by_cases e : t = 3
        · subst e
          cases h
          exact Ne.symm hn
        · exact absurd ((setTask_other _ _ e).symm.trans h) (none6 t x))) rfl)
  have e9 := e8.step (.finalizeStore (t := 3) (n := n) (m := [(2, 1), (0, 0)]) rfl (by
    show ([7, 8] : Bytes).length < _
    decide))
  exact ⟨_, e9.step (.createInsert (t := 4) (n := n') rfl hp (by
      refine (lookup_filter_ne _ _ _).trans ?_
      rw [if_neg hn]
      refine (ArchStore.building_set _ n n' _).trans ?_
      rw [if_neg hn]
      refine (ArchStore.building_set _ n n' _).trans ?_
      rw [if_neg hn]
      refine (ArchStore.building_set _ n n' _).trans ?_
      rw [if_neg hn]
      rfl))⟩

/-- `C60_one_at_a_time_partial` and `C60_archived_files_partial` speak of such runs. -/
example : ∃ s, ArchConc.Run true .plain s [.created ArchiveExample.n2, .finalized ArchiveExample.n1,
      .synced 1, .wrote 1 [7, 8], .opened ArchiveExample.n1 2 1, .opened ArchiveExample.n1 0 0,
      .created ArchiveExample.n1] ∧
    s.store.handleMap .plain (.persistent ArchiveExample.n1 2) = .ok [7, 8] := by
  obtain ⟨s, hs⟩ := ArchConc.example_run (n := ArchiveExample.n1) (n' := ArchiveExample.n2)
    (by decide)
  exact ⟨s, hs, ((C60_archived_files_partial hs (n := ArchiveExample.n1) (by decide)
    (f := "predicate_dictionary_blocks.tfc") (k := 2) (by decide) (by decide)).2.2.2 [7, 8]
    (by decide)).2⟩

end Verif
