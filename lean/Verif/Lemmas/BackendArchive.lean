import Verif.Lemmas.BackendTakes

/-!
Archives take new layers.
-/

namespace Verif

namespace ArchStore

/-- The files of a layer among some puts. -/
def filesOf (puts : List Put) (n : LayerName) : List (FileKind × Bytes) :=
  puts.filterMap (fun p => if p.1 = n then
    match FileName.kind p.2.1 with
    | .ok k => some (k, p.2.2)
    | _ => none
    else none)

theorem filesOf_mem {puts : List Put} {n : LayerName} {k : FileKind} {b : Bytes} :
    (k, b) ∈ filesOf puts n ↔ ∃ f, (n, f, b) ∈ puts ∧ FileName.kind f = .ok k := by
  unfold filesOf
  rw [List.mem_filterMap]
  constructor
  · rintro ⟨⟨m, f, b'⟩, h1, h2⟩
    split at h2
    · rename_i e
      replace e : m = n := e
      subst e
      split at h2
      · rename_i k' hk
        cases h2
        exact ⟨f, h1, hk⟩
      · cases h2
    · cases h2
  · rintro ⟨f, h1, h2⟩
    refine ⟨_, h1, ?_⟩
    rw [if_pos rfl]
    show (match FileName.kind f with
      | .ok k => some (k, b)
      | _ => none) = _
    rw [h2]

theorem filesOf_cons {p : Put} {puts : List Put} {k : FileKind} (hk : FileName.kind p.2.1 = .ok k)
    (n : LayerName) : filesOf (p :: puts) n =
      if p.1 = n then (k, p.2.2) :: filesOf puts n else filesOf puts n := by
  unfold filesOf
  rw [List.filterMap_cons]
  by_cases e : p.1 = n
  · simp only [e, if_true, hk]
  · simp only [e, if_false]

theorem filesOf_keys {puts : List Put}
    (h : (puts.map (fun p => (p.1, FileName.kind p.2.1))).Nodup) (n : LayerName) :
    ((filesOf puts n).map (·.1)).Nodup := by
  induction puts with
  | nil => exact List.nodup_nil
  | cons p puts ih =>
    rw [List.map_cons, List.nodup_cons] at h
    unfold filesOf
    rw [List.filterMap_cons]
    by_cases e : p.1 = n
    · rw [if_pos e]
      cases hk : FileName.kind p.2.1 with
      | ok k =>
        show (((k, p.2.2) :: filesOf puts n).map (·.1)).Nodup
        rw [List.map_cons, List.nodup_cons]
        refine ⟨fun hm => ?_, ih h.2⟩
        obtain ⟨⟨k', b⟩, hq, rfl⟩ := List.mem_map.mp hm
        obtain ⟨f, h1, h2⟩ := filesOf_mem.mp hq
        exact h.1 (List.mem_map.mpr ⟨_, h1, by rw [h2, e]; exact congrArg (n, ·) hk.symm⟩)
      | err => exact ih h.2
      | panic => exact ih h.2
    · rw [if_neg e]; exact ih h.2

theorem filesOf_small (puts : List Put) (n : LayerName) :
    ((filesOf puts n).map (·.2)).flatten.length ≤
      ((puts.filter (fun p => p.1 = n)).map (fun p => p.2.2.length)).sum := by
  induction puts with
  | nil => simp [filesOf]
  | cons p puts ih =>
    unfold filesOf
    rw [List.filterMap_cons]
    by_cases e : p.1 = n
    · rw [if_pos e, List.filter_cons_of_pos (by simpa using e), List.map_cons, List.sum_cons]
      cases FileName.kind p.2.1 with
      | ok k =>
        show (((k, p.2.2) :: filesOf puts n).map (·.2)).flatten.length ≤ _
        rw [List.map_cons, List.flatten_cons, List.length_append]
        dsimp only
        omega
      | err => show ((filesOf puts n).map (·.2)).flatten.length ≤ _; omega
      | panic => show ((filesOf puts n).map (·.2)).flatten.length ≤ _; omega
    · rw [if_neg e, List.filter_cons_of_neg (by simpa using e)]
      exact ih

/-- A state in which new layers are under construction. -/
structure Mid (s0 s : ArchStore) (sel : List LayerName) (done : List Put) : Prop where
  disk : s.disk = s0.disk
  grow : s0.heap.length ≤ s.heap.length
  heap : ∀ h, h < s0.heap.length → s.heap[h]? = s0.heap[h]?
  others : ∀ n, n ∉ sel → s.building n = s0.building n
  mine : ∀ n ∈ sel, ∃ m, s.building n = some m ∧ finalizedFiles s.heap m = filesOf done n ∧
    m.map (·.1) = (filesOf done n).map (·.1) ∧ ∀ q ∈ m, q.2 < s.heap.length

theorem createAll (s : ArchStore) (sel : List LayerName) (hn : sel.Nodup)
    (hd : ∀ n ∈ sel, s.directoryExists n = false) :
    ∃ s', Out.forEach createNamed s sel = .ok s' ∧ s'.disk = s.disk ∧ s'.heap = s.heap ∧
      (∀ n, n ∉ sel → s'.building n = s.building n) ∧ ∀ n ∈ sel, s'.building n = some [] := by
  induction sel generalizing s with
  | nil => exact ⟨s, rfl, rfl, rfl, fun _ _ => rfl, fun _ h => (by cases h)⟩
  | cons n sel ih =>
    rw [List.nodup_cons] at hn
    have h0 := hd n List.mem_cons_self
    unfold directoryExists at h0
    rw [Bool.or_eq_false_iff] at h0
    have hb : s.building n = none := by
      cases h : s.building n with
      | none => rfl
      | some m => rw [h] at h0; cases h0.1
    have hc : s.createNamed n = .ok (s.setBuilding n []) := by
      unfold createNamed
      rw [h0.2, hb]
      rfl
    obtain ⟨s', g1, g2, g3, g4, g5⟩ := ih (s.setBuilding n []) hn.2 (fun m hm => by
      have := hd m (List.mem_cons_of_mem _ hm)
      unfold directoryExists at this ⊢
      rw [building_set, if_neg (show ¬ m = n from fun e => hn.1 (e ▸ hm))]
      exact this)
    refine ⟨s', ?_, g2, g3, fun m hm => ?_, fun m hm => ?_⟩
    · show (s.createNamed n).bind _ = _
      rw [hc]; exact g1
    · rw [List.mem_cons, not_or] at hm
      rw [g4 m hm.2, building_set, if_neg hm.1]
    · by_cases hs : m ∈ sel
      · exact g5 m hs
      · rcases List.mem_cons.mp hm with e | e
        · subst e; rw [g4 m hs, building_set, if_pos rfl]
        · exact absurd e hs

theorem finalizedFiles_congr {heap heap' : List CFile} {m : List (FileKind × Nat)}
    (h : ∀ q ∈ m, heap'[q.2]? = heap[q.2]?) : finalizedFiles heap' m = finalizedFiles heap m := by
  induction m with
  | nil => rfl
  | cons q m ih =>
    obtain ⟨k, i⟩ := q
    unfold finalizedFiles
    rw [h _ List.mem_cons_self, ih (fun q hq => h q (List.mem_cons_of_mem _ hq))]

/-- Writing a new file. -/
theorem write_new {s : ArchStore} {n : LayerName} {f : FileName} {k : FileKind}
    {m : List (FileKind × Nat)} (hk : FileName.kind f = .ok k) (hr : k ≠ FileKind.rollup)
    (hb : s.building n = some m) (hl : m.lookup k = none) (b : Bytes) :
    ∃ s', s.write n f b = .ok s' ∧ s'.disk = s.disk ∧ s'.heap = s.heap ++ [.finalized b] ∧
      ∀ i, s'.building i = if i = n then some ((k, s.heap.length) :: m) else s.building i := by
  let s1 := { s with heap := s.heap ++ [CFile.new] }.setBuilding n ((k, s.heap.length) :: m)
  have h1 : s.getFile n f = .ok (.construction s.heap.length, s1) := by
    unfold getFile
    rw [hk]
    show (if k = FileKind.rollup then _ else _) = _
    rw [if_neg hr, hb]
    show (match m.lookup k with
      | some h => Out.ok _
      | none => Out.ok _) = _
    rw [hl]
  have g1 : s1.fileAt s.heap.length = some CFile.new := by
    show (s.heap ++ [CFile.new])[s.heap.length]? = _
    simp
  let s2 := s1.setFile s.heap.length (.underConstruction b)
  have h2 : s1.handleWrite s.heap.length b = .ok (b.length, s2) := by
    unfold handleWrite
    rw [g1]
    rfl
  have g2 : s2.fileAt s.heap.length = some (.underConstruction b) := by
    show ((s.heap ++ [CFile.new]).set s.heap.length _)[s.heap.length]? = _
    simp
  have h3 : s2.handleSync s.heap.length = .ok (s2.setFile s.heap.length (.finalized b)) := by
    unfold handleSync
    rw [g2]
    rfl
  refine ⟨s2.setFile s.heap.length (.finalized b), ?_, rfl, ?_, fun i => ?_⟩
  · unfold write
    rw [h1]
    show (s1.handleWrite s.heap.length b).bind _ = _
    rw [h2]
    exact h3
  · show ((s.heap ++ [CFile.new]).set s.heap.length _).set s.heap.length _ = _
    simp
  · exact building_set { s with heap := s.heap ++ [CFile.new] } n i _

theorem Mid.put {s0 s : ArchStore} {sel : List LayerName} {done : List Put} (h : Mid s0 s sel done)
    {p : Put} (hp : p.1 ∈ sel) {k : FileKind} (hk : FileName.kind p.2.1 = .ok k)
    (hr : k ≠ FileKind.rollup) (hne : ∀ q ∈ done, q.1 = p.1 → FileName.kind q.2.1 ≠ .ok k) :
    ∃ s', s.write p.1 p.2.1 p.2.2 = .ok s' ∧ Mid s0 s' sel (p :: done) := by
  obtain ⟨m, h1, h2, h3, h4⟩ := h.mine p.1 hp
  have hl : m.lookup k = none := by
    rw [lookup_none]
    intro b0 hm0
    have hm : k ∈ m.map (·.1) := List.mem_map.mpr ⟨_, hm0, rfl⟩
    rw [h3] at hm
    obtain ⟨⟨k', b⟩, hq, rfl⟩ := List.mem_map.mp hm
    obtain ⟨f, g1, g2⟩ := filesOf_mem.mp hq
    exact hne _ g1 rfl g2
  obtain ⟨s', e1, e2, e3, e4⟩ := write_new hk hr h1 hl p.2.2
  have hat : ∀ i, i < s.heap.length → s'.heap[i]? = s.heap[i]? := fun i hi => by
    rw [e3, List.getElem?_append_left hi]
  refine ⟨s', e1, ⟨by rw [e2, h.disk], by rw [e3, List.length_append]; have := h.grow; omega,
    fun i hi => by rw [hat i (Nat.lt_of_lt_of_le hi h.grow), h.heap i hi],
    fun i hi => by rw [e4, if_neg (show ¬ i = p.1 from fun e => hi (e ▸ hp)), h.others i hi], fun i hi => ?_⟩⟩
  rw [e4]
  by_cases e : i = p.1
  · subst e
    refine ⟨_, if_pos rfl, ?_, ?_, ?_⟩
    · have hx : s'.heap[s.heap.length]? = some (.finalized p.2.2) := by rw [e3]; simp
      unfold finalizedFiles
      rw [hx]
      dsimp only
      rw [finalizedFiles_congr (fun q hq => hat q.2 (h4 q hq)), h2, filesOf_cons hk, if_pos rfl]
    · rw [List.map_cons, h3, filesOf_cons hk, if_pos rfl, List.map_cons]
    · intro q hq
      rw [e3, List.length_append]
      rcases List.mem_cons.mp hq with e | e
      · subst e; exact Nat.lt_succ_self _
      · have := h4 q e; omega
  · obtain ⟨m', g1, g2, g3, g4⟩ := h.mine i hi
    have ef : filesOf (p :: done) i = filesOf done i := by
      rw [filesOf_cons hk, if_neg (Ne.symm e)]
    refine ⟨m', by rw [if_neg e, g1], ?_, by rw [ef, g3], fun q hq => ?_⟩
    · rw [finalizedFiles_congr (fun q hq => hat q.2 (g4 q hq)), g2, ef]
    · rw [e3, List.length_append]; have := g4 q hq; omega

theorem Mid.putAll {s0 : ArchStore} {sel : List LayerName} (puts : List Put) {s : ArchStore}
    {done : List Put} (h : Mid s0 s sel done) (hp : ∀ p ∈ puts, p.1 ∈ sel)
    (hk : ∀ p ∈ puts, ∃ k, FileName.kind p.2.1 = .ok k ∧ k ≠ FileKind.rollup)
    (hn : ((done.reverse ++ puts).map (fun p => (p.1, FileName.kind p.2.1))).Nodup) :
    ∃ s', Out.forEach (fun s p => s.write p.1 p.2.1 p.2.2) s puts = .ok s' ∧
      Mid s0 s' sel (puts.reverse ++ done) := by
  induction puts generalizing s done with
  | nil => exact ⟨s, rfl, h⟩
  | cons p puts ih =>
    obtain ⟨k, hk1, hk2⟩ := hk p List.mem_cons_self
    obtain ⟨s1, h1, h2⟩ := h.put (hp p List.mem_cons_self) hk1 hk2 (fun q hq he hkq => by
      rw [List.map_append, List.map_cons] at hn
      have := (List.nodup_append.mp hn).2.2 (q.1, FileName.kind q.2.1)
        (List.mem_map.mpr ⟨q, List.mem_reverse.mpr hq, rfl⟩) _ List.mem_cons_self
      exact this (by rw [he, hkq, hk1]))
    obtain ⟨s', g1, g2⟩ := ih h2 (fun p hp' => hp p (List.mem_cons_of_mem _ hp'))
      (fun p hp' => hk p (List.mem_cons_of_mem _ hp')) (by simpa using hn)
    refine ⟨s', ?_, by simpa using g2⟩
    show (s.write p.1 p.2.1 p.2.2).bind _ = _
    rw [h1]; exact g1

/-- A state in which some of the new layers are finalized. -/
structure Late (c : OffsetCodec) (s0 s : ArchStore) (sel rest : List LayerName) (done : List Put) :
    Prop where
  rollups : s.disk.rollups = s0.disk.rollups
  heap : ∀ h, h < s0.heap.length → s.heap[h]? = s0.heap[h]?
  others : ∀ n, n ∉ sel → s.building n = s0.building n ∧ s.disk.file n = s0.disk.file n
  todo : ∀ n ∈ rest, s.disk.file n = none ∧
    ∃ m, s.building n = some m ∧ finalizedFiles s.heap m = filesOf done n
  ready : ∀ n ∈ sel, n ∉ rest → s.building n = none ∧
    s.disk.file n = some (Archive.encode c (filesOf done n))

theorem Late.step {c : OffsetCodec} {s0 s : ArchStore} {sel rest : List LayerName}
    {done : List Put} {n : LayerName} (h : Late c s0 s sel (n :: rest) done)
    (hn : n ∉ rest) (hs : n ∈ sel) (hsmall : ((filesOf done n).map (·.2)).flatten.length < 2 ^ 64) :
    ∃ s', s.finalize c n = .ok s' ∧ Late c s0 s' sel rest done := by
  obtain ⟨hf, m, hm, hfin⟩ := h.todo n List.mem_cons_self
  have hb : ∀ i, (s.constr.filter (fun q => q.1 ≠ n)).lookup i =
      if i = n then none else s.building i := fun i => by
    rw [lookup_filter_ne]
    rfl
  have hd : ∀ i, (s.disk.storeLayerFile n (Archive.encode c (filesOf done n))).file i =
      if i = n then some (Archive.encode c (filesOf done n)) else s.disk.file i := fun i => by
    unfold ArchDir.storeLayerFile ArchDir.file at *
    rw [hf]
    show ((n, _) :: s.disk.larch).lookup i = _
    rw [option_lookup_cons]
    simp
  refine ⟨{ s with
      constr := s.constr.filter (fun q => q.1 ≠ n)
      disk := s.disk.storeLayerFile n (Archive.encode c (filesOf done n)) }, ?_,
    ⟨h.rollups, h.heap, fun i hi => ?_, fun i hi => ?_, fun i hi hr => ?_⟩⟩
  · unfold finalize
    rw [hm]
    dsimp only
    rw [hfin, if_neg (by omega)]
  · have e : i ≠ n := fun e => hi (e ▸ hs)
    refine ⟨(hb i).trans ?_, (hd i).trans ?_⟩
    · rw [if_neg e, (h.others i hi).1]
    · rw [if_neg e, (h.others i hi).2]
  · have e : i ≠ n := fun e => hn (e ▸ hi)
    obtain ⟨g1, m', g2, g3⟩ := h.todo i (List.mem_cons_of_mem _ hi)
    exact ⟨(hd i).trans (by rw [if_neg e, g1]), m', (hb i).trans (by rw [if_neg e, g2]), g3⟩
  · by_cases e : i = n
    · subst e
      exact ⟨(hb i).trans (if_pos rfl), (hd i).trans (if_pos rfl)⟩
    · obtain ⟨g1, g2⟩ := h.ready i hi (by rw [List.mem_cons, not_or]; exact ⟨e, hr⟩)
      exact ⟨(hb i).trans (by rw [if_neg e, g1]), (hd i).trans (by rw [if_neg e, g2])⟩

theorem Late.all {c : OffsetCodec} {s0 : ArchStore} {sel : List LayerName} {done : List Put}
    (rest : List LayerName) {s : ArchStore} (h : Late c s0 s sel rest done) (hn : rest.Nodup)
    (hs : ∀ n ∈ rest, n ∈ sel)
    (hsmall : ∀ n ∈ rest, ((filesOf done n).map (·.2)).flatten.length < 2 ^ 64) :
    ∃ s', Out.forEach (finalize c) s rest = .ok s' ∧ Late c s0 s' sel [] done := by
  induction rest generalizing s with
  | nil => exact ⟨s, rfl, h⟩
  | cons n rest ih =>
    rw [List.nodup_cons] at hn
    obtain ⟨s1, h1, h2⟩ := h.step hn.1 (hs n List.mem_cons_self) (hsmall n List.mem_cons_self)
    obtain ⟨s', g1, g2⟩ := ih h2 hn.2 (fun m hm => hs m (List.mem_cons_of_mem _ hm))
      (fun m hm => hsmall m (List.mem_cons_of_mem _ hm))
    refine ⟨s', ?_, g2⟩
    show (s.finalize c n).bind _ = _
    rw [h1]; exact g1

/-! ### Answers -/

/-- What a stored layer answers about a file. -/
theorem stored_answers {c : OffsetCodec} {s : ArchStore} {n : LayerName}
    {files : List (FileKind × Bytes)} (hb : s.building n = none)
    (hd : s.disk.file n = some (Archive.encode c files)) (hw : Archive.Writable files)
    {f : FileName} {k : FileKind} (hk : FileName.kind f = .ok k) (hr : k ≠ FileKind.rollup)
    {x : Option Bytes} (hx : ∀ b, (k, b) ∈ files ↔ x = some b) :
    (Backend.archive c).Answers s n f x := by
  have hg : s.getFile n f = .ok (.persistent n k, s) := by
    unfold getFile
    rw [hk]
    show (if k = FileKind.rollup then _ else _) = _
    rw [if_neg hr, hb]
  refine ⟨?_, fun h => ?_, fun b h => ?_⟩
  · show s.fileExists n f = _
    unfold fileExists
    rw [hk]
    show (if k = FileKind.rollup then _ else _) = _
    rw [if_neg hr, hb]
    obtain ⟨e, h1, h2⟩ := ArchDir.layerFileExists_eq hw hd k
    show s.disk.layerFileExists n k = _
    rw [h1]
    congr 1
    cases x with
    | none =>
      cases e with
      | false => rfl
      | true =>
        obtain ⟨b, hb⟩ := h2.mp rfl
        cases (hx b).mp hb
    | some b => exact h2.mpr ⟨b, (hx b).mpr rfl⟩
  · have hno : ∀ b, (k, b) ∉ files := fun b hb => by rw [(hx b).mp hb] at h; cases h
    constructor
    · show (s.getFile n f).bind _ = _
      rw [hg]
      show (s.disk.getStructureBytes c n k).bind _ = _
      rw [ArchDir.getStructureBytes_none hw hd hno]
      rfl
    · show (s.getFile n f).bind _ = _
      rw [hg]
      exact ArchDir.getStructureSize_none hw hd hno
  · have hm := (hx b).mpr h
    constructor
    · show (s.getFile n f).bind _ = _
      rw [hg]
      show (s.disk.getStructureBytes c n k).bind _ = _
      rw [ArchDir.getStructureBytes_some hw hd hm]
      rfl
    · show (s.getFile n f).bind _ = _
      rw [hg]
      exact ArchDir.getStructureSize_some hw hd hm

/-- A layer without a rollup file has no rollup. -/
theorem rollup_absent {s : ArchStore} {n : LayerName} (h : s.disk.rollups.lookup n = none) :
    s.fileExists n FileName.rollup = .ok false := by
  have hk : FileName.kind FileName.rollup = .ok FileKind.rollup := by decide
  unfold fileExists
  rw [hk]
  show (s.disk.getRollup n).bind _ = _
  have : s.disk.getRollup n = .ok none := by
    unfold ArchDir.getRollup
    rw [h]
    cases s.disk.file n <;> rfl
  rw [this]
  rfl

theorem parentName_of {b : Bytes} {p : LayerName} (h : readParentFile b = .ok p) :
    ArchDir.parentName b = .ok p := by
  unfold readParentFile bytesToName at h
  unfold ArchDir.parentName
  split at h
  · cases h
  · rename_i hl
    rw [if_neg hl]
    rw [List.length_take, if_neg (by omega)] at h
    rw [h]
    rfl

theorem of_parentName {b : Bytes} {p : LayerName} (h : ArchDir.parentName b = .ok p) :
    readParentFile b = .ok p := by
  unfold ArchDir.parentName at h
  unfold readParentFile bytesToName
  split at h
  · cases h
  · rename_i hl
    rw [if_neg hl, List.length_take, if_neg (by omega)]
    cases hs : stringToName (utf8Lossy (b.take 40)) with
    | ok q => rw [hs] at h; exact h
    | err => rw [hs] at h; cases h
    | panic => rw [hs] at h; cases h

/-- The parent of a stored layer. -/
theorem stored_parent {c : OffsetCodec} {s : ArchStore} {n : LayerName}
    {files : List (FileKind × Bytes)}
    (hd : s.disk.file n = some (Archive.encode c files)) (hw : Archive.Writable files) :
    ((∀ b, (FileKind.parent, b) ∉ files) → s.layerParent c n = .ok none) ∧
    (∀ b, (FileKind.parent, b) ∈ files →
      s.layerParent c n = (ArchDir.parentName b).bind (fun p => .ok (some p))) := by
  refine ⟨fun h => ?_, fun b h => ?_⟩
  · show (s.disk.getStructureBytes c n FileKind.parent).bind _ = _
    rw [ArchDir.getStructureBytes_none hw hd h]
    rfl
  · show (s.disk.getStructureBytes c n FileKind.parent).bind _ = _
    rw [ArchDir.getStructureBytes_some hw hd h]
    rfl

/-- A layer of which neither the stored files nor those under construction changed. -/
theorem unchanged {c : OffsetCodec} {s s' : ArchStore} {n : LayerName}
    (hb : s'.building n = s.building n) (hf : s'.disk.file n = s.disk.file n)
    (hr : s'.disk.rollups.lookup n = s.disk.rollups.lookup n)
    (hh : ∀ m, s.building n = some m → ∀ q ∈ m, s'.heap[q.2]? = s.heap[q.2]?) :
    PackSpec.Unchanged (.archive c) s s' n := by
  have hopen : s'.disk.open n = s.disk.open n := by unfold ArchDir.open; rw [hf]
  have hroll : s'.disk.getRollup n = s.disk.getRollup n := by
    unfold ArchDir.getRollup; rw [hf, hr]
  have hbytes : ∀ k, s'.disk.getStructureBytes c n k = s.disk.getStructureBytes c n k := fun k => by
    unfold ArchDir.getStructureBytes; rw [hopen]
  have hsize : ∀ k, s'.disk.getStructureSize c n k = s.disk.getStructureSize c n k := fun k => by
    unfold ArchDir.getStructureSize; rw [hopen]
  have hlex : ∀ k, s'.disk.layerFileExists n k = s.disk.layerFileExists n k := fun k => by
    unfold ArchDir.layerFileExists; rw [hf]
  refine ⟨?_, fun f => ⟨?_, ?_, ?_⟩, ?_⟩
  · show s'.directoryExists n = s.directoryExists n
    unfold directoryExists ArchDir.layerExists
    rw [hb, hf]
  · show s'.fileExists n f = s.fileExists n f
    unfold fileExists
    rw [hb, hroll]
    simp only [hlex]
  · show s'.map c n f = s.map c n f
    unfold map getFile
    cases hk : FileName.kind f with
    | err => rfl
    | panic => rfl
    | ok k =>
      show Out.bind (if k = FileKind.rollup then _ else _) _ =
        Out.bind (if k = FileKind.rollup then _ else _) _
      by_cases e : k = FileKind.rollup
      · rw [if_pos e, if_pos e]
        show RollupFile.map s'.disk n = RollupFile.map s.disk n
        unfold RollupFile.map
        rw [hroll]
      · rw [if_neg e, if_neg e, hb]
        cases hm : s.building n with
        | none =>
          show Slice.map c s'.disk n k = Slice.map c s.disk n k
          unfold Slice.map
          rw [hbytes]
        | some m =>
          dsimp only
          cases hl : m.lookup k with
          | none =>
            have : ∀ t : ArchStore, handleMap c ({ t with heap := t.heap ++ [CFile.new] }.setBuilding n
                ((k, t.heap.length) :: m)) (.construction t.heap.length) = .err := fun t => by
              show (Out.ofOption (t.heap ++ [CFile.new])[t.heap.length]?).bind _ = _
              simp
              rfl
            exact (this s').trans (this s).symm
          | some i =>
            show (Out.ofOption s'.heap[i]?).bind _ = (Out.ofOption s.heap[i]?).bind _
            rw [hh m hm _ (lookup_mem hl)]
  · show s'.size c n f = s.size c n f
    unfold size getFile
    cases hk : FileName.kind f with
    | err => rfl
    | panic => rfl
    | ok k =>
      show Out.bind (if k = FileKind.rollup then _ else _) _ =
        Out.bind (if k = FileKind.rollup then _ else _) _
      by_cases e : k = FileKind.rollup
      · rw [if_pos e, if_pos e]
        show RollupFile.size s'.disk n = RollupFile.size s.disk n
        unfold RollupFile.size
        rw [hroll]
      · rw [if_neg e, if_neg e, hb]
        cases hm : s.building n with
        | none => exact hsize k
        | some m =>
          dsimp only
          cases hl : m.lookup k with
          | none =>
            have : ∀ t : ArchStore, handleSize c ({ t with heap := t.heap ++ [CFile.new] }.setBuilding n
                ((k, t.heap.length) :: m)) (.construction t.heap.length) = .err := fun t => by
              show (Out.ofOption (t.heap ++ [CFile.new])[t.heap.length]?).bind _ = _
              simp
              rfl
            exact (this s').trans (this s).symm
          | some i =>
            show (Out.ofOption s'.heap[i]?).bind _ = (Out.ofOption s.heap[i]?).bind _
            rw [hh m hm _ (lookup_mem hl)]
  · show (s'.disk.getStructureBytes c n FileKind.parent).bind _ = (s.disk.getStructureBytes c n _).bind _
    rw [hbytes]

theorem takes {c : OffsetCodec} {s : ArchStore} {L : List ArchEvent} (h : Run c s L) :
    (Backend.archive c).Takes s := by
  intro sel order puts hn ho hd ha
  obtain ⟨s1, e1, e2, e3, e4, e5⟩ := createAll s sel hn hd
  have mid : Mid s s1 sel [] := ⟨e2, by rw [e3], fun h _ => by rw [e3], e4,
    fun n hn => ⟨[], e5 n hn, rfl, rfl, fun q hq => (by cases hq)⟩⟩
  obtain ⟨s2, g1, g2⟩ := mid.putAll puts ha.into ha.known ha.once
  rw [List.append_nil] at g2
  have absent : ∀ n ∈ sel, s.disk.file n = none := fun n hn => by
    have := hd n hn
    replace this : s.directoryExists n = false := this
    unfold directoryExists ArchDir.layerExists at this
    rw [Bool.or_eq_false_iff] at this
    cases hf : s.disk.file n with
    | none => rfl
    | some b => rw [hf] at this; cases this.2
  have late : Late c s s2 sel order puts.reverse := by
    refine ⟨by rw [g2.disk], g2.heap, fun n hn => ⟨g2.others n hn, by rw [g2.disk]⟩,
      fun n hn => ⟨by rw [g2.disk]; exact absent n (ho.mem_iff.mp hn), ?_⟩, fun n hn hr => ?_⟩
    · obtain ⟨m, q1, q2, -⟩ := g2.mine n (ho.mem_iff.mp hn)
      exact ⟨m, q1, q2⟩
    · exact absurd (ho.mem_iff.mpr hn) hr
  have mem : ∀ n k b, (k, b) ∈ filesOf puts.reverse n ↔
      ∃ f, (n, f, b) ∈ puts ∧ FileName.kind f = .ok k := fun n k b => by
    rw [filesOf_mem]
    simp
  have wr : ∀ n ∈ sel, Archive.Writable (filesOf puts.reverse n) := fun n hn => by
    refine ⟨filesOf_keys ?_ n, Nat.lt_of_le_of_lt (filesOf_small _ n) ?_⟩
    · rw [List.map_reverse, List.nodup_reverse]; exact ha.once
    · rw [List.filter_reverse, List.map_reverse, List.sum_reverse]; exact ha.small n hn
  obtain ⟨s3, q1, q2⟩ := late.all order (ho.nodup_iff.mpr hn) (fun n hn => ho.mem_iff.mp hn)
    (fun n hn => (wr n (ho.mem_iff.mp hn)).2)
  have hpar : FileName.kind FileName.parent = .ok FileKind.parent := by decide
  refine ⟨s1, s2, s3, e1, g1, q1, fun n hn => ?_, fun n hn => ?_⟩
  · obtain ⟨hb, hf⟩ := q2.ready n hn (by simp)
    refine ⟨?_, fun f b hp => ?_, fun f k hk hr hno => ?_, ?_, fun hno => ?_, fun b p hp hb' => ?_⟩
    · show s3.directoryExists n = true
      unfold directoryExists ArchDir.layerExists
      rw [hf]
      simp
    · obtain ⟨k, hk, hr⟩ := ha.known _ hp
      replace hk : FileName.kind f = .ok k := hk
      refine stored_answers hb hf (wr n hn) hk hr (fun b' => ?_)
      have hm := (mem n k b).mpr ⟨f, hp, hk⟩
      constructor
      · intro hm'
        have l1 := lookup_of_mem (wr n hn).1 hm
        have l2 := lookup_of_mem (wr n hn).1 hm'
        rw [l1] at l2
        exact l2
      · intro e; cases e; exact hm
    · refine stored_answers hb hf (wr n hn) hk hr (fun b => ⟨fun hm => ?_, fun e => by cases e⟩)
      obtain ⟨f', h1, h2⟩ := (mem n k b).mp hm
      exact absurd h2 (hno f' b h1)
    · refine rollup_absent ?_
      rw [q2.rollups]
      have hro := h.rolled
      rw [hro.files]
      cases hr : FileSpec.rollupOf n L with
      | none => rfl
      | some r =>
        have := hro.layer n (by rw [hr]; rfl)
        rw [absent n hn] at this
        cases this
    · refine (stored_parent hf (wr n hn)).1 (fun b hm => ?_)
      obtain ⟨f', h1, h2⟩ := (mem _ _ _).mp hm
      have : f' = FileName.parent := ha.parents _ h1 h2
      subst this
      exact hno b h1
    · show s3.layerParent c n = _
      rw [(stored_parent hf (wr n hn)).2 b ((mem _ _ _).mpr ⟨_, hp, hpar⟩), parentName_of hb']
      rfl
  · refine unchanged (q2.others n hn).1 (q2.others n hn).2 (by rw [q2.rollups]) (fun m hm q hq => ?_)
    exact q2.heap q.2 ((h.inv.files n m hm).2.1 q.1 q.2 hq)

end ArchStore

/-- Every state of a store takes new layers. -/
theorem StoreKind.Reached.takes {K : StoreKind} {s : K.backend.State} (h : K.Reached s) :
    K.backend.Takes s := by
  cases K with
  | directory trunc => exact (Backend.plainDirectory trunc).takes s
  | memory => exact Backend.plainMemory.takes s
  | archive c =>
    obtain ⟨L, h⟩ := h
    exact ArchStore.takes h

end Verif
