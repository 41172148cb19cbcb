import Verif.Lemmas.ArchiveStore

namespace Verif

open FileSpec

theorem lookup_mem {α β : Type} [DecidableEq α] {a : α} {b : β} {l : List (α × β)}
    (h : l.lookup a = some b) : (a, b) ∈ l := by
  induction l with
  | nil => cases h
  | cons q l ih =>
    obtain ⟨x, y⟩ := q
    rw [List.lookup_cons] at h
    by_cases e : a = x
    · subst e
      simp at h; subst h; exact List.mem_cons_self
    · have : (a == x) = false := by simpa using e
      rw [this] at h
      exact List.mem_cons_of_mem _ (ih h)

theorem lookup_none {α β : Type} [DecidableEq α] {a : α} {l : List (α × β)} :
    l.lookup a = none ↔ ∀ b, (a, b) ∉ l := by
  induction l with
  | nil => simp
  | cons q l ih =>
    obtain ⟨x, y⟩ := q
    rw [List.lookup_cons]
    by_cases e : a = x
    · subst e
      constructor
      · intro h; simp at h
      · intro h; exact absurd List.mem_cons_self (h y)
    · have : (a == x) = false := by simpa using e
      rw [this, ih]
      simp [e]

theorem lookup_of_mem {α β : Type} [DecidableEq α] {a : α} {b : β} {l : List (α × β)}
    (hn : (l.map (·.1)).Nodup) (h : (a, b) ∈ l) : l.lookup a = some b := by
  induction l with
  | nil => cases h
  | cons q l ih =>
    obtain ⟨x, y⟩ := q
    rw [List.lookup_cons]
    simp only [List.map_cons, List.nodup_cons] at hn
    rcases List.mem_cons.mp h with e | h
    · cases e; simp
    · have : a ≠ x := fun e => hn.1 (by rw [← e]; exact List.mem_map_of_mem (f := (·.1)) h)
      have : (a == x) = false := by simpa using this
      rw [this]
      exact ih hn.2 h

theorem lookup_filter_ne {α β : Type} [DecidableEq α] (a b : α) (l : List (α × β)) :
    (l.filter (fun q => q.1 ≠ a)).lookup b = if b = a then none else l.lookup b := by
  induction l with
  | nil => simp
  | cons q l ih =>
    obtain ⟨x, y⟩ := q
    by_cases e : x = a
    · subst e
      have : List.filter (fun q : α × β => q.1 ≠ x) ((x, y) :: l) = l.filter (fun q => q.1 ≠ x) := by
        simp
      rw [this, ih, List.lookup_cons]
      by_cases hb : b = x
      · simp [hb]
      · have : (b == x) = false := by simpa using hb
        rw [this]
    · have : List.filter (fun q : α × β => q.1 ≠ a) ((x, y) :: l) =
          (x, y) :: l.filter (fun q => q.1 ≠ a) := by
        simp [e]
      rw [this, List.lookup_cons, List.lookup_cons, ih]
      by_cases hb : b = x
      · subst hb; simp [e]
      · have : (b == x) = false := by simpa using hb
        rw [this]

namespace ArchStore

theorem building_set (s : ArchStore) (n m : LayerName) (x : List (FileKind × Nat)) :
    (s.setBuilding n x).building m = if m = n then some x else s.building m := by
  unfold building setBuilding
  rw [List.lookup_cons, lookup_filter_ne]
  by_cases e : m = n
  · simp [e]
  · have : (m == n) = false := by simpa using e
    rw [this]; simp [e]

/-- What is true in every state that can be reached. -/
structure Inv (c : OffsetCodec) (s : ArchStore) (L : List ArchEvent) : Prop where
  /-- The files in the heap are what the calls made of them. -/
  heap : ∀ h f, s.heap[h]? = some f → f = CFile.new.after (opsOf h L)
  /-- There are no calls on other files. -/
  idle : ∀ h, s.heap.length ≤ h → opsOf h L = []
  /-- The files of a layer under construction. -/
  files : ∀ n m, s.building n = some m → (m.map (·.1)).Nodup ∧
    (∀ k h, (k, h) ∈ m → h < s.heap.length) ∧ (∀ k, openedAs n k L = m.lookup k)
  /-- A layer under construction is not finalized and not stored. -/
  fresh : ∀ n m, s.building n = some m → beforeFinal n L = none ∧ s.disk.file n = none
  /-- A layer that is neither has no files. -/
  absent : ∀ n, s.building n = none → s.disk.file n = none → beforeFinal n L = none ∧
    ∀ k, openedAs n k L = none
  /-- Stored layers. -/
  stored : ∀ n b, s.disk.file n = some b → s.building n = none ∧ (beforeFinal n L).isSome ∧
    ∃ files, b = Archive.encode c files ∧ Archive.Writable files ∧
      ∀ k x, (k, x) ∈ files ↔ FileSpec.stored L n k = some x

theorem finalizedFiles_mem (heap : List CFile) (m : List (FileKind × Nat)) (k : FileKind)
    (b : Bytes) :
    (k, b) ∈ finalizedFiles heap m ↔ ∃ h, (k, h) ∈ m ∧ heap[h]? = some (.finalized b) := by
  induction m with
  | nil => simp [finalizedFiles]
  | cons q m ih =>
    obtain ⟨k', h'⟩ := q
    unfold finalizedFiles
    split
    · rename_i b' he
      simp only [List.mem_cons, Prod.mk.injEq, ih]
      constructor
      · rintro (⟨rfl, rfl⟩ | ⟨h, h1, h2⟩)
        · exact ⟨h', Or.inl ⟨rfl, rfl⟩, he⟩
        · exact ⟨h, Or.inr h1, h2⟩
      · rintro ⟨h, ⟨rfl, rfl⟩ | h1, h2⟩
        · rw [he] at h2; cases h2; exact Or.inl ⟨rfl, rfl⟩
        · exact Or.inr ⟨h, h1, h2⟩
    · rename_i hne
      simp only [List.mem_cons, Prod.mk.injEq, ih]
      constructor
      · rintro ⟨h, h1, h2⟩
        exact ⟨h, Or.inr h1, h2⟩
      · rintro ⟨h, ⟨rfl, rfl⟩ | h1, h2⟩
        · exact absurd h2 (hne b)
        · exact ⟨h, h1, h2⟩

theorem finalizedFiles_keys (heap : List CFile) (m : List (FileKind × Nat)) :
    List.Sublist ((finalizedFiles heap m).map (·.1)) (m.map (·.1)) := by
  induction m with
  | nil => simp [finalizedFiles]
  | cons q m ih =>
    obtain ⟨k', h'⟩ := q
    unfold finalizedFiles
    split
    · exact List.Sublist.cons_cons _ ih
    · exact List.Sublist.cons _ ih

/-! ### The spec functions on one more event -/

/-- The event says nothing about the layer. -/
def Mute (n : LayerName) : ArchEvent → Prop
  | .finalized n' => n' ≠ n
  | _ => True

theorem beforeFinal_mute {n : LayerName} {e : ArchEvent} {L : List ArchEvent} (h : Mute n e) :
    beforeFinal n (e :: L) = beforeFinal n L := by
  cases e <;> first | rfl | skip
  exact if_neg h

theorem stored_mute {n : LayerName} {e : ArchEvent} {L : List ArchEvent} (h : Mute n e)
    (k : FileKind) : FileSpec.stored (e :: L) n k = FileSpec.stored L n k := by
  unfold FileSpec.stored
  rw [beforeFinal_mute h]

/-- A change of the heap only, with events about one file. -/
theorem Inv.touch {c : OffsetCodec} {s : ArchStore} {L : List ArchEvent} (hi : Inv c s L)
    {h : Nat} {f : CFile} {e : ArchEvent} {op : CFile.Op} (hf : s.heap[h]? = some f)
    (he : (∃ b, e = .wrote h b ∧ op = .write b) ∨ (e = .synced h ∧ op = .sync)) :
    Inv c (s.setFile h (f.step op).2) (e :: L) := by
  have hlt : h < s.heap.length := by
    rcases Nat.lt_or_ge h s.heap.length with h1 | h1
    · exact h1
    · rw [List.getElem?_eq_none h1] at hf; cases hf
  have hops : ∀ h', opsOf h' (e :: L) = if h = h' then opsOf h' L ++ [op] else opsOf h' L := by
    intro h'
    rcases he with ⟨b, rfl, rfl⟩ | ⟨rfl, rfl⟩ <;> rfl
  have hmute : ∀ n, Mute n e := by
    intro n
    rcases he with ⟨b, rfl, rfl⟩ | ⟨rfl, rfl⟩ <;> trivial
  have hopen : ∀ n k, openedAs n k (e :: L) = openedAs n k L := by
    intro n k
    rcases he with ⟨b, rfl, rfl⟩ | ⟨rfl, rfl⟩ <;> rfl
  refine ⟨?_, ?_, ?_, ?_, ?_, ?_⟩
  · intro h' f' hf'
    have hf' : (s.heap.set h (f.step op).2)[h']? = some f' := hf'
    rw [hops]
    by_cases e' : h = h'
    · subst e'
      rw [List.getElem?_set_self hlt] at hf'
      cases hf'
      rw [if_pos rfl, CFile.after_append, ← hi.heap h f hf]
      rfl
    · rw [List.getElem?_set_ne e'] at hf'
      rw [if_neg e']
      exact hi.heap h' f' hf'
  · intro h' hh'
    have hh' : (s.heap.set h (f.step op).2).length ≤ h' := hh'
    rw [List.length_set] at hh'
    rw [hops, if_neg (by omega)]
    exact hi.idle h' hh'
  · intro n m hb
    obtain ⟨h1, h2, h3⟩ := hi.files n m hb
    refine ⟨h1, ?_, fun k => by rw [hopen]; exact h3 k⟩
    intro k h' hm
    show h' < (s.heap.set h (f.step op).2).length
    rw [List.length_set]; exact h2 k h' hm
  · intro n m hb
    rw [beforeFinal_mute (hmute n)]
    exact hi.fresh n m hb
  · intro n h1 h2
    rw [beforeFinal_mute (hmute n)]
    refine ⟨(hi.absent n h1 h2).1, fun k => ?_⟩
    rw [hopen]; exact (hi.absent n h1 h2).2 k
  · intro n b hb
    obtain ⟨h1, h2, files, h3, h4, h5⟩ := hi.stored n b hb
    refine ⟨h1, by rw [beforeFinal_mute (hmute n)]; exact h2, files, h3, h4, fun k x => ?_⟩
    rw [stored_mute (hmute n)]; exact h5 k x

/-- A new file for a layer under construction. -/
theorem Inv.newFile {c : OffsetCodec} {s : ArchStore} {L : List ArchEvent} (hi : Inv c s L)
    {n : LayerName} {m : List (FileKind × Nat)} {k : FileKind} (hb : s.building n = some m)
    (hk : m.lookup k = none) :
    Inv c ({ s with heap := s.heap ++ [CFile.new] }.setBuilding n ((k, s.heap.length) :: m))
      (.opened n k s.heap.length :: L) := by
  have hops : ∀ h', opsOf h' (.opened n k s.heap.length :: L) = opsOf h' L := fun _ => rfl
  have hmute : ∀ n', Mute n' (.opened n k s.heap.length) := fun _ => trivial
  have hopen : ∀ n' k', openedAs n' k' (.opened n k s.heap.length :: L) =
      if n = n' ∧ k = k' then some s.heap.length else openedAs n' k' L := fun _ _ => rfl
  obtain ⟨h1, h2, h3⟩ := hi.files n m hb
  refine ⟨?_, ?_, ?_, ?_, ?_, ?_⟩
  · intro h' f' hf'
    have hf' : (s.heap ++ [CFile.new])[h']? = some f' := hf'
    rw [hops]
    rcases Nat.lt_trichotomy h' s.heap.length with hl | rfl | hl
    · rw [List.getElem?_append_left hl] at hf'
      exact hi.heap h' f' hf'
    · simp at hf'
      rw [hi.idle _ (Nat.le_refl _), ← hf']; rfl
    · rw [List.getElem?_eq_none (by simp; omega)] at hf'; cases hf'
  · intro h' hh'
    have hh' : (s.heap ++ [CFile.new]).length ≤ h' := hh'
    rw [List.length_append] at hh'
    rw [hops]; exact hi.idle h' (by omega)
  · intro n' m' hb'
    rw [building_set] at hb'
    by_cases e : n' = n
    · subst e
      rw [if_pos rfl] at hb'
      cases hb'
      refine ⟨?_, ?_, ?_⟩
      · simp only [List.map_cons, List.nodup_cons]
        refine ⟨fun hm => ?_, h1⟩
        obtain ⟨q, hq, e⟩ := List.mem_map.mp hm
        exact (lookup_none.mp hk) q.2 (by rw [← e]; exact hq)
      · intro k' h' hm
        show h' < (s.heap ++ [CFile.new]).length
        rw [List.length_append]
        rcases List.mem_cons.mp hm with e | hm
        · cases e; simp
        · have := h2 k' h' hm; omega
      · intro k'
        rw [hopen, List.lookup_cons]
        by_cases e : k = k'
        · subst e; simp
        · have : (k' == k) = false := by simpa using fun h => e h.symm
          rw [this, if_neg (by simp [e])]
          exact h3 k'
    · rw [if_neg e] at hb'
      obtain ⟨g1, g2, g3⟩ := hi.files n' m' hb'
      refine ⟨g1, ?_, ?_⟩
      · intro k' h' hm
        show h' < (s.heap ++ [CFile.new]).length
        rw [List.length_append]
        have := g2 k' h' hm; omega
      · intro k'
        rw [hopen, if_neg (fun h => e h.1.symm)]
        exact g3 k'
  · intro n' m' hb'
    rw [building_set] at hb'
    rw [beforeFinal_mute (hmute n')]
    by_cases e : n' = n
    · subst e; exact hi.fresh n' m hb
    · rw [if_neg e] at hb'
      exact hi.fresh n' m' hb'
  · intro n' g1 g2
    rw [building_set] at g1
    by_cases e : n' = n
    · subst e; simp at g1
    · rw [if_neg e] at g1
      rw [beforeFinal_mute (hmute n')]
      refine ⟨(hi.absent n' g1 g2).1, fun k' => ?_⟩
      rw [hopen, if_neg (fun h => e h.1.symm)]
      exact (hi.absent n' g1 g2).2 k'
  · intro n' b hb'
    obtain ⟨g1, g2, files, g3, g4, g5⟩ := hi.stored n' b hb'
    have e : n' ≠ n := fun e => by subst e; rw [hb] at g1; cases g1
    refine ⟨by rw [building_set, if_neg e]; exact g1, by rw [beforeFinal_mute (hmute n')]; exact g2,
      files, g3, g4, fun k' x => ?_⟩
    rw [stored_mute (hmute n')]; exact g5 k' x

theorem getFile_new {s s' : ArchStore} {n : LayerName} {f : FileName} {k : FileKind}
    (hk : f.kind = .ok k) (h : s.getFile n f = .ok (.construction s.heap.length, s'))
    (hlt : ∀ m, s.building n = some m → ∀ k h, (k, h) ∈ m → h < s.heap.length) :
    ∃ m, s.building n = some m ∧ m.lookup k = none ∧
      s' = { s with heap := s.heap ++ [CFile.new] }.setBuilding n ((k, s.heap.length) :: m) := by
  unfold getFile at h
  rw [hk] at h
  replace h : (if k = FileKind.rollup then Out.ok (ArchHandle.rollup n, s) else _) = _ := h
  split at h
  · cases h
  · split at h
    · cases h
    · rename_i m hb
      split at h
      · rename_i h' hm
        simp only [Out.ok.injEq, Prod.mk.injEq, ArchHandle.construction.injEq] at h
        have := hlt m hb k h' (lookup_mem hm)
        omega
      · rename_i hm
        simp only [Out.ok.injEq, Prod.mk.injEq, true_and] at h
        exact ⟨m, hb, hm, h.symm⟩

theorem getFile_old {s s' : ArchStore} {n : LayerName} {f : FileName} {h : ArchHandle}
    (hg : s.getFile n f = .ok (h, s')) (hne : h ≠ .construction s.heap.length) : s' = s := by
  unfold getFile at hg
  cases hk : f.kind with
  | err => rw [hk] at hg; cases hg
  | panic => rw [hk] at hg; cases hg
  | ok k =>
    rw [hk] at hg
    replace hg : (if k = FileKind.rollup then Out.ok (ArchHandle.rollup n, s) else _) = _ := hg
    split at hg
    · cases hg; rfl
    · split at hg
      · cases hg; rfl
      · split at hg
        · cases hg; rfl
        · cases hg; exact absurd rfl hne

theorem Inv.step {c : OffsetCodec} {s s' : ArchStore} {L L' : List ArchEvent} (hi : Inv c s L)
    (h : Step c s L s' L') : Inv c s' L' := by
  cases h with
  | create hc =>
    rename_i n
    unfold createNamed at hc
    split at hc
    · cases hc
    · rename_i hex
      split at hc
      · cases hc
      · rename_i hb
        cases hc
        have hd : s.disk.file n = none := by
          simp [ArchDir.layerExists] at hex; exact hex
        refine ⟨hi.heap, hi.idle, ?_, ?_, ?_, ?_⟩
        · intro n' m' hb'
          rw [building_set] at hb'
          by_cases e : n' = n
          · subst e
            rw [if_pos rfl] at hb'
            cases hb'
            refine ⟨List.nodup_nil, fun k h hm => (by cases hm), fun k => ?_⟩
            exact (hi.absent n' hb hd).2 k
          · rw [if_neg e] at hb'
            exact hi.files n' m' hb'
        · intro n' m' hb'
          rw [building_set] at hb'
          by_cases e : n' = n
          · subst e
            exact ⟨(hi.absent n' hb hd).1, hd⟩
          · rw [if_neg e] at hb'
            exact hi.fresh n' m' hb'
        · intro n' g1 g2
          rw [building_set] at g1
          by_cases e : n' = n
          · subst e; simp at g1
          · rw [if_neg e] at g1
            exact hi.absent n' g1 g2
        · intro n' b hb'
          have hb'' : s.disk.file n' = some b := hb'
          obtain ⟨g1, g2, g3⟩ := hi.stored n' b hb'
          have e : n' ≠ n := fun e => by subst e; rw [hd] at hb''; cases hb''
          exact ⟨by rw [building_set, if_neg e]; exact g1, g2, g3⟩
  | getNew hk hg =>
    obtain ⟨m, hb, hm, rfl⟩ := getFile_new hk hg (fun m hb => (hi.files _ m hb).2.1)
    exact hi.newFile hb hm
  | getOld hg hne =>
    rw [getFile_old hg hne]; exact hi
  | writeBytes hw =>
    rename_i n k b
    unfold ArchStore.writeBytes at hw
    split at hw
    · cases hw
    · rename_i m hb
      split at hw
      · cases hw
      · rename_i hm
        cases hw
        have h1 := hi.newFile hb hm
        have h2 := h1.touch (h := s.heap.length) (f := CFile.new) (e := .wrote s.heap.length b)
          (op := .write b) (by simp [setBuilding]) (Or.inl ⟨b, rfl, rfl⟩)
        have h3 := h2.touch (h := s.heap.length) (f := .underConstruction b)
          (e := .synced s.heap.length) (op := .sync)
          (by simp [setBuilding, setFile, CFile.new, CFile.step, CFile.write]) (Or.inr ⟨rfl, rfl⟩)
        have e : (({ s with heap := s.heap ++ [CFile.new] }.setBuilding n
            ((k, s.heap.length) :: m)).setFile s.heap.length (CFile.new.step (.write b)).2).setFile
            s.heap.length ((CFile.underConstruction b).step .sync).2 =
            { s with heap := s.heap ++ [CFile.newFinalized b] }.setBuilding n
              ((k, s.heap.length) :: m) := by
          simp [setFile, setBuilding, CFile.step, CFile.sync, CFile.newFinalized]
        rw [← e]
        exact h3
  | write hw =>
    rename_i h buf k
    unfold handleWrite at hw
    cases hf : s.fileAt h with
    | none => rw [hf] at hw; cases hw
    | some f =>
      rw [hf] at hw
      cases f with
      | underConstruction b =>
        simp only [CFile.write, Out.ok.injEq, Prod.mk.injEq] at hw
        obtain ⟨-, rfl⟩ := hw
        exact hi.touch (op := .write buf) hf (Or.inl ⟨buf, rfl, rfl⟩)
      | finalizing => simp [CFile.write] at hw
      | finalized b => simp [CFile.write] at hw
  | sync hw =>
    rename_i h
    unfold handleSync at hw
    cases hf : s.fileAt h with
    | none => rw [hf] at hw; cases hw
    | some f =>
      rw [hf] at hw
      cases f with
      | underConstruction b =>
        simp only [CFile.sync, Out.ok.injEq] at hw
        subst hw
        exact hi.touch (op := .sync) hf (Or.inr ⟨rfl, rfl⟩)
      | finalizing => simp [CFile.sync] at hw
      | finalized b => simp [CFile.sync] at hw
  | finalize hw =>
    rename_i n
    unfold ArchStore.finalize at hw
    cases hb : s.building n with
    | none => rw [hb] at hw; cases hw
    | some m =>
      rw [hb] at hw
      simp only at hw
      split at hw
      · cases hw
      · rename_i hsz
        cases hw
        obtain ⟨h1, h2, h3⟩ := hi.files n m hb
        obtain ⟨hf1, hf2⟩ := hi.fresh n m hb
        have hbuild : ∀ n', ArchStore.building (s := { s with
            constr := s.constr.filter (fun q => q.1 ≠ n)
            disk := s.disk.storeLayerFile n (Archive.encode c (finalizedFiles s.heap m)) }) n' =
            if n' = n then none else s.building n' := by
          intro n'
          exact lookup_filter_ne n n' s.constr
        have hdisk : ∀ n', (s.disk.storeLayerFile n
            (Archive.encode c (finalizedFiles s.heap m))).file n' =
            if n' = n then some (Archive.encode c (finalizedFiles s.heap m)) else s.disk.file n' := by
          intro n'
          unfold ArchDir.storeLayerFile
          rw [hf2]
          show List.lookup n' (_ :: _) = _
          rw [List.lookup_cons]
          by_cases e : n' = n
          · simp [e]
          · have : (n' == n) = false := by simpa using e
            rw [this, if_neg e]; rfl
        refine ⟨hi.heap, hi.idle, ?_, ?_, ?_, ?_⟩
        · intro n' m' hb'
          rw [hbuild] at hb'
          split at hb'
          · cases hb'
          · exact hi.files n' m' hb'
        · intro n' m' hb'
          rw [hbuild] at hb'
          split at hb'
          · cases hb'
          · rename_i e
            rw [beforeFinal_mute (e := .finalized n) (fun h => e h.symm)]
            refine ⟨(hi.fresh n' m' hb').1, ?_⟩
            show (s.disk.storeLayerFile n _).file n' = none
            rw [hdisk, if_neg e]
            exact (hi.fresh n' m' hb').2
        · intro n' g1 g2
          rw [hbuild] at g1
          replace g2 : (s.disk.storeLayerFile n
            (Archive.encode c (finalizedFiles s.heap m))).file n' = none := g2
          rw [hdisk] at g2
          by_cases e : n' = n
          · rw [if_pos e] at g2; cases g2
          · rw [if_neg e] at g1 g2
            rw [beforeFinal_mute (e := .finalized n) (fun h => e h.symm)]
            exact hi.absent n' g1 g2
        · intro n' b hb'
          rw [hbuild]
          replace hb' : (s.disk.storeLayerFile n
            (Archive.encode c (finalizedFiles s.heap m))).file n' = some b := hb'
          rw [hdisk] at hb'
          by_cases e : n' = n
          · subst e
            rw [if_pos rfl] at hb'
            have hbf : beforeFinal n' (.finalized n' :: L) = some L := if_pos rfl
            refine ⟨if_pos rfl, by rw [hbf]; rfl, finalizedFiles s.heap m, ?_, ?_, ?_⟩
            · simpa using hb'.symm
            · exact ⟨h1.sublist (finalizedFiles_keys _ _), by omega⟩
            · intro k x
              rw [finalizedFiles_mem]
              unfold FileSpec.stored
              rw [hbf]
              simp only [h3 k]
              constructor
              · rintro ⟨h, hm, hh⟩
                rw [lookup_of_mem h1 hm]
                have := hi.heap h _ hh
                rw [CFile.after_new] at this
                split at this
                · rename_i hs
                  cases this
                  simp only [hs, if_true]
                · cases this
              · intro hx
                cases hl : m.lookup k with
                | none => rw [hl] at hx; cases hx
                | some h =>
                  rw [hl] at hx
                  simp only at hx
                  refine ⟨h, lookup_mem hl, ?_⟩
                  have hlt := h2 k h (lookup_mem hl)
                  have hg : s.heap[h]? = some s.heap[h] := List.getElem?_eq_getElem hlt
                  have := hi.heap h _ hg
                  split at hx
                  · rename_i hs
                    cases hx
                    rw [hg, this, CFile.after_new, if_pos hs]
                  · cases hx
          · rw [if_neg e] at hb'
            obtain ⟨g1, g2, files, g3, g4, g5⟩ := hi.stored n' b hb'
            have hm : Mute n' (.finalized n) := fun h => e h.symm
            refine ⟨by rw [if_neg e]; exact g1, by rw [beforeFinal_mute hm]; exact g2, files, g3, g4,
              fun k x => ?_⟩
            rw [stored_mute hm]; exact g5 k x
  | rollup hw hr =>
    rename_i d n r data
    have hd : ∀ n', d.file n' = s.disk.file n' := by
      unfold RollupFile.writeSync at hw
      cases h1 : ArchDir.secondLine (utf8Lossy data) with
      | ok l =>
        rw [h1] at hw
        replace hw : (stringToName l).bind _ = _ := hw
        cases h2 : stringToName l with
        | ok q =>
          rw [h2] at hw
          replace hw : s.disk.setRollup n q = _ := hw
          unfold ArchDir.setRollup at hw
          split at hw
          · cases hw
          · cases hw; intro n'; rfl
        | err => rw [h2] at hw; cases hw
        | panic => rw [h2] at hw; cases hw
      | err => rw [h1] at hw; cases hw
      | panic => rw [h1] at hw; cases hw
    exact ⟨hi.heap, hi.idle, hi.files, fun n' m hb => ⟨(hi.fresh n' m hb).1, by
        show d.file n' = none; rw [hd]; exact (hi.fresh n' m hb).2⟩,
      fun n' g1 g2 => hi.absent n' g1 (by rw [← hd]; exact g2),
      fun n' b hb => hi.stored n' b (by rw [← hd]; exact hb)⟩

theorem Run.inv {c : OffsetCodec} {s : ArchStore} {L : List ArchEvent} (h : Run c s L) :
    Inv c s L := by
  induction h with
  | start =>
    exact ⟨fun h f hf => by simp at hf, fun h _ => rfl, fun n m hb => (by cases hb),
      fun n m hb => (by cases hb), fun n _ _ => ⟨rfl, fun k => rfl⟩, fun n b hb => by cases hb⟩
  | step _ hs ih => exact ih.step hs

end ArchStore

end Verif
