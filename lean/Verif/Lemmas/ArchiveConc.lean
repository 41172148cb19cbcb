import Verif.Model.ArchiveConc
import Verif.Lemmas.ArchiveRun

/-!
Calls on an archive store that take more than one step are as if they took one, as long as callers
keep to the rules.
-/

namespace Verif

namespace ArchConc

theorem setTask_same (s : ArchConc) (t : Nat) (x : Option Task) : (s.setTask t x).tasks t = x := by
  simp [setTask]

theorem setTask_other (s : ArchConc) {t u : Nat} (x : Option Task) (h : u ≠ t) :
    (s.setTask t x).tasks u = s.tasks u := by
  simp [setTask, h]

/-- The store with calls under way, and the store in which each call is one step. -/
structure Sim (c : OffsetCodec) (s : ArchConc) (L : List ArchEvent) (a : ArchStore) : Prop where
  run : ArchStore.Run c a L
  disk : a.disk = s.store.disk
  heap : a.heap = s.store.heap
  sound : s.poisoned = false ∧ s.panics = 0
  same : ∀ n, (∀ t m, s.tasks t ≠ some (.finalizing n m)) → a.building n = s.store.building n
  creating : ∀ t n, s.tasks t = some (.creating n) → s.store.building n = none ∧
    s.store.disk.layerExists n = false ∧ ∀ u x, s.tasks u = some x → x.name = n → u = t
  getting : ∀ t n k, s.tasks t = some (.getting n k) → (∃ f, FileName.kind f = .ok k) ∧
    k ≠ FileKind.rollup ∧ (∃ m, s.store.building n = some m ∧ m.lookup k = none) ∧
    ∀ u x, s.tasks u = some x → x.name = n → u = t ∨ ∃ k', x = .getting n k' ∧ k' ≠ k
  finalizing : ∀ t n m, s.tasks t = some (.finalizing n m) → s.store.building n = none ∧
    a.building n = some m ∧ ∀ u x, s.tasks u = some x → x.name = n → u = t

theorem Sim.start (c : OffsetCodec) : Sim c {} [] {} := by
  refine ⟨.start, rfl, rfl, ⟨rfl, rfl⟩, fun _ _ => rfl, ?_, ?_, ?_⟩
  · intro t n h; cases h
  · intro t n k h; cases h
  · intro t n m h; cases h

/-- The state of the files changes, all else stays. -/
theorem Sim.files {c : OffsetCodec} {s : ArchConc} {L L' : List ArchEvent} {a a' : ArchStore}
    {st : ArchStore} (h : Sim c s L a) (hr : ArchStore.Run c a' L')
    (hd : a'.disk = st.disk) (hh : a'.heap = st.heap)
    (hb : st.constr = s.store.constr) (hab : a'.constr = a.constr)
    (hl : ∀ n, s.store.disk.layerExists n = false → st.disk.layerExists n = false) :
    Sim c { s with store := st } L' a' := by
  have e1 : ∀ n, st.building n = s.store.building n := fun n => by
    unfold ArchStore.building; rw [hb]
  have e2 : ∀ n, a'.building n = a.building n := fun n => by
    unfold ArchStore.building; rw [hab]
  refine ⟨hr, hd, hh, h.sound, ?_, ?_, ?_, ?_⟩
  · intro n hn
    show a'.building n = st.building n
    rw [e1, e2]
    exact h.same n hn
  · intro t n ht
    obtain ⟨h1, h2, h3⟩ := h.creating t n ht
    exact ⟨(e1 n).trans h1, hl n h2, h3⟩
  · intro t n k ht
    obtain ⟨h1, h2, ⟨m, h3, h4⟩, h5⟩ := h.getting t n k ht
    exact ⟨h1, h2, ⟨m, (e1 n).trans h3, h4⟩, h5⟩
  · intro t n m ht
    obtain ⟨h1, h2, h3⟩ := h.finalizing t n m ht
    exact ⟨(e1 n).trans h1, (e2 n).trans h2, h3⟩

theorem handleWrite_parts {s s' : ArchStore} {h : Nat} {buf : Bytes} {m : Nat}
    (hw : s.handleWrite h buf = .ok (m, s')) : s'.constr = s.constr ∧ s'.disk = s.disk := by
  unfold ArchStore.handleWrite at hw
  split at hw
  · cases hw
  · split at hw
    · cases hw; exact ⟨rfl, rfl⟩
    · cases hw
    · cases hw

theorem handleSync_parts {s s' : ArchStore} {h : Nat} (hw : s.handleSync h = .ok s') :
    s'.constr = s.constr ∧ s'.disk = s.disk := by
  unfold ArchStore.handleSync at hw
  split at hw
  · cases hw
  · split at hw
    · cases hw; exact ⟨rfl, rfl⟩
    · cases hw
    · cases hw

/-- Writing depends on the files under construction only. -/
theorem handleWrite_heap {s a s' : ArchStore} {h : Nat} {buf : Bytes} {m : Nat}
    (he : a.heap = s.heap) (hw : s.handleWrite h buf = .ok (m, s')) :
    a.handleWrite h buf = .ok (m, { a with heap := s'.heap }) := by
  unfold ArchStore.handleWrite ArchStore.fileAt at *
  rw [he]
  split at hw
  · cases hw
  · split at hw
    · rename_i f' hf'
      cases hw
      simp only [ArchStore.setFile, he]
    · cases hw
    · cases hw

theorem handleSync_heap {s a s' : ArchStore} {h : Nat} (he : a.heap = s.heap)
    (hw : s.handleSync h = .ok s') : a.handleSync h = .ok { a with heap := s'.heap } := by
  unfold ArchStore.handleSync ArchStore.fileAt at *
  rw [he]
  split at hw
  · cases hw
  · split at hw
    · rename_i f' hf'
      cases hw
      simp only [ArchStore.setFile, he]
    · cases hw
    · cases hw

theorem storeLayerFile_exists (d : ArchDir) (n m : LayerName) (b : Bytes) :
    (d.storeLayerFile n b).layerExists m = (decide (m = n) || d.layerExists m) := by
  unfold ArchDir.layerExists ArchDir.file ArchDir.storeLayerFile
  rw [List.lookup_cons]
  by_cases e : m = n
  · subst e; simp
  · have : (m == n) = false := by simpa using e
    rw [this]
    simp [e]

theorem writeSync_layers {d d' : ArchDir} {n : LayerName} {data : Bytes}
    (h : RollupFile.writeSync d n data = .ok d') (m : LayerName) :
    d'.layerExists m = d.layerExists m := by
  have key : ∀ r, d.setRollup n r = .ok d' → d'.layerExists m = d.layerExists m := by
    intro r hr
    unfold ArchDir.setRollup at hr
    split at hr
    · cases hr
    · cases hr; rfl
  unfold RollupFile.writeSync at h
  cases h1 : ArchDir.secondLine (utf8Lossy data) with
  | ok l =>
    rw [h1] at h
    replace h : (stringToName l).bind _ = _ := h
    cases h2 : stringToName l with
    | ok q => rw [h2] at h; exact key q h
    | err => rw [h2] at h; cases h
    | panic => rw [h2] at h; cases h
  | err => rw [h1] at h; cases h
  | panic => rw [h1] at h; cases h

theorem getFile_new {s : ArchStore} {n : LayerName} {f : FileName} {k : FileKind}
    {m : List (FileKind × Nat)} (hf : f.kind = .ok k) (hk : k ≠ FileKind.rollup)
    (hb : s.building n = some m) (hl : m.lookup k = none) :
    s.getFile n f = .ok (.construction s.heap.length,
      { s with heap := s.heap ++ [CFile.new] }.setBuilding n ((k, s.heap.length) :: m)) := by
  unfold ArchStore.getFile
  rw [hf]
  show (if k = FileKind.rollup then _ else _) = _
  rw [if_neg hk]
  simp only [hb, hl]

theorem filter_none {m : List (FileKind × Nat)} {k : FileKind} (h : m.lookup k = none) :
    m.filter (fun q => q.1 ≠ k) = m := by
  rw [List.filter_eq_self]
  intro q hq
  simp only [ne_eq, decide_not, Bool.not_eq_eq_eq_not, Bool.not_true, decide_eq_false_iff_not]
  rintro rfl
  rw [List.lookup_eq_none_iff] at h
  have := h q hq
  simp at this

theorem Sim.step {c : OffsetCodec} {s s' : ArchConc} {L L' : List ArchEvent} {a : ArchStore}
    (h : Sim c s L a) (hs : Step true c s L s' L') : ∃ a', Sim c s' L' a' := by
  cases hs with
  | @createCheck _ t n ht hb he =>
    cases hb rfl with
    | creating h1 h2 h3 =>
    refine ⟨a, h.run, h.disk, h.heap, h.sound, ?_, ?_, ?_, ?_⟩
    · intro n' hn
      refine h.same n' (fun u m hu => ?_)
      have e : u ≠ t := by rintro rfl; rw [ht] at hu; cases hu
      exact hn u m (by rw [setTask_other _ _ e]; exact hu)
    · intro u n' hu
      by_cases e : u = t
      · subst e
        rw [setTask_same] at hu
        cases hu
        refine ⟨h1, h2, fun v x hv hx => ?_⟩
        by_cases e : v = u
        · exact e
        · rw [setTask_other _ _ e] at hv
          exact absurd hx (h3 v x hv)
      · rw [setTask_other _ _ e] at hu
        obtain ⟨g1, g2, g3⟩ := h.creating u n' hu
        refine ⟨g1, g2, fun v x hv hx => ?_⟩
        by_cases e' : v = t
        · subst e'
          rw [setTask_same] at hv
          cases hv
          exact absurd hx.symm (h3 u _ hu)
        · rw [setTask_other _ _ e'] at hv
          exact g3 v x hv hx
    · intro u n' k hu
      have e : u ≠ t := by rintro rfl; rw [setTask_same] at hu; cases hu
      rw [setTask_other _ _ e] at hu
      obtain ⟨g1, g2, g3, g4⟩ := h.getting u n' k hu
      refine ⟨g1, g2, g3, fun v x hv hx => ?_⟩
      by_cases e' : v = t
      · subst e'
        rw [setTask_same] at hv
        cases hv
        exact absurd hx.symm (h3 u _ hu)
      · rw [setTask_other _ _ e'] at hv
        exact g4 v x hv hx
    · intro u n' m hu
      have e : u ≠ t := by rintro rfl; rw [setTask_same] at hu; cases hu
      rw [setTask_other _ _ e] at hu
      obtain ⟨g1, g2, g3⟩ := h.finalizing u n' m hu
      refine ⟨g1, g2, fun v x hv hx => ?_⟩
      by_cases e' : v = t
      · subst e'
        rw [setTask_same] at hv
        cases hv
        exact absurd hx.symm (h3 u _ hu)
      · rw [setTask_other _ _ e'] at hv
        exact g3 v x hv hx
  | createExists ht hb he =>
    cases hb rfl with
    | creating h1 h2 h3 => rw [h2] at he; cases he
  | @createInsert _ t n ht hp hb =>
    obtain ⟨g1, g2, g3⟩ := h.creating t n ht
    have hab : a.building n = none := by
      rw [h.same n (fun u m hu => ?_)]
      · exact g1
      · have := g3 u _ hu rfl
        subst this
        rw [ht] at hu
        cases hu
    have hc : a.createNamed n = .ok (a.setBuilding n []) := by
      unfold ArchStore.createNamed
      rw [h.disk, g2, hab]
      rfl
    have gone : ∀ u x, (s.setTask t none).tasks u = some x → s.tasks u = some x ∧ u ≠ t := by
      intro u x hu
      have e : u ≠ t := by rintro rfl; rw [setTask_same] at hu; cases hu
      rw [setTask_other _ _ e] at hu
      exact ⟨hu, e⟩
    have away : ∀ u x, (s.setTask t none).tasks u = some x → x.name ≠ n := by
      intro u x hu hx
      obtain ⟨hu, e⟩ := gone u x hu
      exact e (g3 u x hu hx)
    refine ⟨a.setBuilding n [], h.run.step (.create hc), h.disk, h.heap, h.sound, ?_, ?_, ?_, ?_⟩
    · intro n' hn
      show (a.setBuilding n []).building n' = (s.store.setBuilding n []).building n'
      rw [ArchStore.building_set, ArchStore.building_set]
      split
      · rfl
      · refine h.same n' (fun u m hu => ?_)
        have e : u ≠ t := by rintro rfl; rw [ht] at hu; cases hu
        exact hn u m ((setTask_other _ _ e).trans hu)
    · intro u n' hu
      have hne : n' ≠ n := away u _ hu
      obtain ⟨k1, k2, k3⟩ := h.creating u n' (gone u _ hu).1
      refine ⟨?_, k2, fun v x hv hx => k3 v x (gone v x hv).1 hx⟩
      show (s.store.setBuilding n []).building n' = none
      rw [ArchStore.building_set, if_neg hne]
      exact k1
    · intro u n' k hu
      have hne : n' ≠ n := away u _ hu
      obtain ⟨k1, k2, ⟨m, k3, k4⟩, k5⟩ := h.getting u n' k (gone u _ hu).1
      refine ⟨k1, k2, ⟨m, ?_, k4⟩, fun v x hv hx => k5 v x (gone v x hv).1 hx⟩
      show (s.store.setBuilding n []).building n' = _
      rw [ArchStore.building_set, if_neg hne]
      exact k3
    · intro u n' m hu
      have hne : n' ≠ n := away u _ hu
      obtain ⟨k1, k2, k3⟩ := h.finalizing u n' m (gone u _ hu).1
      refine ⟨?_, ?_, fun v x hv hx => k3 v x (gone v x hv).1 hx⟩
      · show (s.store.setBuilding n []).building n' = none
        rw [ArchStore.building_set, if_neg hne]
        exact k1
      · rw [ArchStore.building_set, if_neg hne]
        exact k2
  | @createTaken _ t n ht hp hb =>
    obtain ⟨g1, -⟩ := h.creating t n ht
    rw [g1] at hb
    cases hb
  | getOld hp hg => exact ⟨a, h⟩
  | @getCheck _ t n f k m ht hb hf hk hp hbu hl =>
    cases hb rfl with
    | getting h3 =>
    refine ⟨a, h.run, h.disk, h.heap, h.sound, ?_, ?_, ?_, ?_⟩
    · intro n' hn
      refine h.same n' (fun u m hu => ?_)
      have e : u ≠ t := by rintro rfl; rw [ht] at hu; cases hu
      exact hn u m (by rw [setTask_other _ _ e]; exact hu)
    · intro u n' hu
      have e : u ≠ t := by rintro rfl; rw [setTask_same] at hu; cases hu
      rw [setTask_other _ _ e] at hu
      obtain ⟨g1, g2, g3⟩ := h.creating u n' hu
      refine ⟨g1, g2, fun v x hv hx => ?_⟩
      by_cases e' : v = t
      · subst e'
        rw [setTask_same] at hv
        cases hv
        obtain ⟨k', h4, -⟩ := h3 u _ hu hx.symm
        cases h4
      · rw [setTask_other _ _ e'] at hv
        exact g3 v x hv hx
    · intro u n' k' hu
      by_cases e : u = t
      · subst e
        rw [setTask_same] at hu
        cases hu
        refine ⟨⟨f, hf⟩, hk, ⟨m, hbu, hl⟩, fun v x hv hx => ?_⟩
        by_cases e : v = u
        · exact Or.inl e
        · rw [setTask_other _ _ e] at hv
          exact Or.inr (h3 v x hv hx)
      · rw [setTask_other _ _ e] at hu
        obtain ⟨g1, g2, g3, g4⟩ := h.getting u n' k' hu
        refine ⟨g1, g2, g3, fun v x hv hx => ?_⟩
        by_cases e' : v = t
        · subst e'
          rw [setTask_same] at hv
          cases hv
          have hx' : n = n' := hx
          subst hx'
          obtain ⟨k2, h4, h5⟩ := h3 u _ hu rfl
          cases h4
          exact Or.inr ⟨k, rfl, fun h => h5 h.symm⟩
        · rw [setTask_other _ _ e'] at hv
          exact g4 v x hv hx
    · intro u n' m' hu
      have e : u ≠ t := by rintro rfl; rw [setTask_same] at hu; cases hu
      rw [setTask_other _ _ e] at hu
      obtain ⟨g1, g2, g3⟩ := h.finalizing u n' m' hu
      refine ⟨g1, g2, fun v x hv hx => ?_⟩
      by_cases e' : v = t
      · subst e'
        rw [setTask_same] at hv
        cases hv
        obtain ⟨k', h4, -⟩ := h3 u _ hu hx.symm
        cases h4
      · rw [setTask_other _ _ e'] at hv
        exact g3 v x hv hx
  | @getInsert _ t n k m ht hp hb =>
    obtain ⟨⟨f, hf⟩, hk, ⟨m', g1, g2⟩, g3⟩ := h.getting t n k ht
    rw [hb] at g1
    cases g1
    have hab : a.building n = some m := by
      rw [h.same n (fun u m hu => ?_)]
      · exact hb
      · rcases g3 u _ hu rfl with rfl | ⟨k', h4, -⟩
        · rw [ht] at hu
          cases hu
        · cases h4
    have hg := getFile_new hf hk hab g2
    have gone : ∀ u x, (s.setTask t none).tasks u = some x → s.tasks u = some x ∧ u ≠ t := by
      intro u x hu
      have e : u ≠ t := by rintro rfl; rw [setTask_same] at hu; cases hu
      rw [setTask_other _ _ e] at hu
      exact ⟨hu, e⟩
    have hr := h.run.step (.getNew hf hg)
    rw [h.heap] at hr
    have conc : ∀ n', (insertFile s.store n m k CFile.new).building n' =
        if n' = n then some ((k, s.store.heap.length) :: m) else s.store.building n' := by
      intro n'
      unfold insertFile
      rw [ArchStore.building_set, filter_none g2]
      rfl
    have abst : ∀ n', ({ a with heap := s.store.heap ++ [CFile.new] }.setBuilding n
        ((k, s.store.heap.length) :: m)).building n' =
        if n' = n then some ((k, s.store.heap.length) :: m) else a.building n' := by
      intro n'
      rw [ArchStore.building_set]
      rfl
    refine ⟨_, hr, h.disk, rfl, h.sound, ?_, ?_, ?_, ?_⟩
    · intro n' hn
      show _ = (insertFile s.store n m k CFile.new).building n'
      rw [conc, abst]
      split
      · rfl
      · refine h.same n' (fun u m hu => ?_)
        have e : u ≠ t := by rintro rfl; rw [ht] at hu; cases hu
        exact hn u m ((setTask_other _ _ e).trans hu)
    · intro u n' hu
      obtain ⟨hu', e⟩ := gone u _ hu
      obtain ⟨k1, k2, k3⟩ := h.creating u n' hu'
      refine ⟨?_, k2, fun v x hv hx => k3 v x (gone v x hv).1 hx⟩
      show (insertFile s.store n m k CFile.new).building n' = none
      rw [conc, if_neg]
      · exact k1
      · rintro rfl
        rw [hb] at k1
        cases k1
    · intro u n' k' hu
      obtain ⟨hu', e⟩ := gone u _ hu
      obtain ⟨k1, k2, ⟨m', k3, k4⟩, k5⟩ := h.getting u n' k' hu'
      refine ⟨k1, k2, ?_, fun v x hv hx => k5 v x (gone v x hv).1 hx⟩
      show ∃ m, (insertFile s.store n _ k CFile.new).building n' = some m ∧ _
      rw [conc]
      split
      · rename_i e1
        subst e1
        refine ⟨_, rfl, ?_⟩
        rw [hb] at k3
        cases k3
        have hkk : k' ≠ k := by
          rcases g3 u _ hu' rfl with rfl | ⟨k2, h4, h5⟩
          · exact absurd rfl e
          · cases h4
            exact h5
        rw [List.lookup_cons]
        have : (k' == k) = false := by simpa using hkk
        rw [this]
        exact k4
      · exact ⟨m', k3, k4⟩
    · intro u n' m' hu
      obtain ⟨hu', e⟩ := gone u _ hu
      obtain ⟨k1, k2, k3⟩ := h.finalizing u n' m' hu'
      have hne : n' ≠ n := by
        rintro rfl
        rw [hb] at k1
        cases k1
      refine ⟨?_, ?_, fun v x hv hx => k3 v x (gone v x hv).1 hx⟩
      · show (insertFile s.store n m k CFile.new).building n' = none
        rw [conc, if_neg hne]
        exact k1
      · rw [abst, if_neg hne]
        exact k2
  | @getGone _ t n k ht hp hb =>
    obtain ⟨-, -, ⟨m, g1, -⟩, -⟩ := h.getting t n k ht
    rw [hb] at g1
    cases g1
  | @writeBytes s'' _ n k b hm hp hw =>
    obtain ⟨⟨m, hb, g2⟩, g3⟩ := hm rfl
    have hab : a.building n = some m := by
      rw [h.same n (fun u m hu => ?_)]
      · exact hb
      · obtain ⟨k', h4, -⟩ := g3 u _ hu rfl
        cases h4
    have conc : ∀ n', s''.building n' =
        if n' = n then some ((k, s.store.heap.length) :: m) else s.store.building n' := by
      intro n'
      unfold ArchStore.writeBytes at hw
      simp only [hb, g2] at hw
      cases hw
      rw [ArchStore.building_set]
      rfl
    have hd : s''.disk = s.store.disk ∧ s''.heap = s.store.heap ++ [CFile.newFinalized b] := by
      unfold ArchStore.writeBytes at hw
      simp only [hb, g2] at hw
      cases hw
      exact ⟨rfl, rfl⟩
    have hg : a.writeBytes n k b = .ok ({ a with
        heap := a.heap ++ [CFile.newFinalized b] }.setBuilding n ((k, a.heap.length) :: m)) := by
      unfold ArchStore.writeBytes
      simp only [hab, g2]
    have hr := h.run.step (.writeBytes hg)
    rw [h.heap] at hr
    have abst : ∀ n', ({ a with heap := s.store.heap ++ [CFile.newFinalized b] }.setBuilding n
        ((k, s.store.heap.length) :: m)).building n' =
        if n' = n then some ((k, s.store.heap.length) :: m) else a.building n' := by
      intro n'
      rw [ArchStore.building_set]
      rfl
    refine ⟨_, hr, h.disk.trans hd.1.symm, hd.2.symm, h.sound, ?_, ?_, ?_, ?_⟩
    · intro n' hn
      show _ = s''.building n'
      rw [conc, abst]
      split
      · rfl
      · exact h.same n' hn
    · intro u n' hu
      obtain ⟨k1, k2, k3⟩ := h.creating u n' hu
      refine ⟨?_, ?_, k3⟩
      · show s''.building n' = none
        rw [conc, if_neg]
        · exact k1
        · rintro rfl
          rw [hb] at k1
          cases k1
      · show s''.disk.layerExists n' = false
        rw [hd.1]
        exact k2
    · intro u n' k' hu
      obtain ⟨k1, k2, ⟨m', k3, k4⟩, k5⟩ := h.getting u n' k' hu
      refine ⟨k1, k2, ?_, k5⟩
      show ∃ m, s''.building n' = some m ∧ _
      rw [conc]
      split
      · rename_i e1
        subst e1
        refine ⟨_, rfl, ?_⟩
        rw [hb] at k3
        cases k3
        have hkk : k' ≠ k := by
          obtain ⟨k2, h4, h5⟩ := g3 u _ hu rfl
          cases h4
          exact h5
        rw [List.lookup_cons]
        have : (k' == k) = false := by simpa using hkk
        rw [this]
        exact k4
      · exact ⟨m', k3, k4⟩
    · intro u n' m' hu
      obtain ⟨k1, k2, k3⟩ := h.finalizing u n' m' hu
      have hne : n' ≠ n := by
        rintro rfl
        rw [hb] at k1
        cases k1
      refine ⟨?_, ?_, k3⟩
      · show s''.building n' = none
        rw [conc, if_neg hne]
        exact k1
      · rw [abst, if_neg hne]
        exact k2
  | writeBytesTaken ht hm hp hw =>
    obtain ⟨⟨m, hb, g2⟩, g3⟩ := hm rfl
    unfold ArchStore.writeBytes at hw
    simp only [hb, g2] at hw
    cases hw
  | write hw =>
    have hw' := handleWrite_heap h.heap hw
    have hp := handleWrite_parts hw
    refine ⟨_, h.files (h.run.step (.write hw')) ?_ rfl hp.1 rfl ?_⟩
    · exact h.disk.trans hp.2.symm
    · intro n hn
      rw [hp.2]
      exact hn
  | sync hw =>
    have hw' := handleSync_heap h.heap hw
    have hp := handleSync_parts hw
    refine ⟨_, h.files (h.run.step (.sync hw')) ?_ rfl hp.1 rfl ?_⟩
    · exact h.disk.trans hp.2.symm
    · intro n hn
      rw [hp.2]
      exact hn
  | @finalizeRemove _ t n m ht hb hp hbu =>
    cases hb rfl with
    | finalizing h1 h3 =>
    have hab : a.building n = some m := by
      rw [h.same n (fun u m hu => h3 u _ hu rfl)]
      exact hbu
    have conc : ∀ n', ({ s.store with constr := s.store.constr.filter (fun q => q.1 ≠ n) } :
        ArchStore).building n' = if n' = n then none else s.store.building n' := by
      intro n'
      exact lookup_filter_ne _ _ _
    refine ⟨a, h.run, h.disk, h.heap, h.sound, ?_, ?_, ?_, ?_⟩
    · intro n' hn
      refine Eq.trans ?_ (conc n').symm
      rw [if_neg]
      · refine h.same n' (fun u m hu => ?_)
        have e : u ≠ t := by rintro rfl; rw [ht] at hu; cases hu
        exact hn u m ((setTask_other _ _ e).trans hu)
      · rintro rfl
        exact hn t m (setTask_same _ _ _)
    · intro u n' hu
      have e : u ≠ t := by
        rintro rfl
        rw [show _ = _ from setTask_same s u _] at hu
        cases hu
      replace hu := (setTask_other s _ e).symm.trans hu
      obtain ⟨g1, g2, g3⟩ := h.creating u n' hu
      refine ⟨?_, g2, fun v x hv hx => ?_⟩
      · refine (conc n').trans ?_
        split
        · rfl
        · exact g1
      · by_cases e' : v = t
        · subst e'
          rw [show _ = _ from setTask_same s v _] at hv
          cases hv
          exact absurd hx.symm (h3 u _ hu)
        · exact g3 v x ((setTask_other s _ e').symm.trans hv) hx
    · intro u n' k hu
      have e : u ≠ t := by
        rintro rfl
        rw [show _ = _ from setTask_same s u _] at hu
        cases hu
      replace hu := (setTask_other s _ e).symm.trans hu
      obtain ⟨g1, g2, ⟨m', g3, g4⟩, g5⟩ := h.getting u n' k hu
      refine ⟨g1, g2, ⟨m', ?_, g4⟩, fun v x hv hx => ?_⟩
      · refine (conc n').trans ?_
        rw [if_neg (show n' ≠ n from h3 u _ hu)]
        exact g3
      · by_cases e' : v = t
        · subst e'
          rw [show _ = _ from setTask_same s v _] at hv
          cases hv
          exact absurd hx.symm (h3 u _ hu)
        · exact g5 v x ((setTask_other s _ e').symm.trans hv) hx
    · intro u n' m' hu
      by_cases e : u = t
      · subst e
        rw [show _ = _ from setTask_same s u _] at hu
        cases hu
        refine ⟨?_, hab, fun v x hv hx => ?_⟩
        · refine (conc n).trans ?_
          rw [if_pos rfl]
        · by_cases e' : v = u
          · exact e'
          · exact absurd hx (h3 v x ((setTask_other s _ e').symm.trans hv))
      · replace hu := (setTask_other s _ e).symm.trans hu
        obtain ⟨g1, g2, g3⟩ := h.finalizing u n' m' hu
        refine ⟨?_, g2, fun v x hv hx => ?_⟩
        · refine (conc n').trans ?_
          split
          · rfl
          · exact g1
        · by_cases e' : v = t
          · subst e'
            rw [show _ = _ from setTask_same s v _] at hv
            cases hv
            exact absurd hx.symm (h3 u _ hu)
          · exact g3 v x ((setTask_other s _ e').symm.trans hv) hx
  | finalizeGone ht hb hp hbu =>
    cases hb rfl with
    | finalizing h1 h3 =>
    rw [hbu] at h1
    cases h1
  | @finalizeStore _ t n m ht hlen =>
    obtain ⟨g1, g2, g3⟩ := h.finalizing t n m ht
    have hfin : a.finalize c n = .ok { a with
        constr := a.constr.filter (fun q => q.1 ≠ n)
        disk := s.store.disk.storeLayerFile n
          (Archive.encode c (ArchStore.finalizedFiles s.store.heap m)) } := by
      unfold ArchStore.finalize
      rw [g2]
      simp only [h.heap, h.disk]
      rw [if_neg (by omega)]
    have gone : ∀ u x, (s.setTask t none).tasks u = some x → s.tasks u = some x ∧ u ≠ t := by
      intro u x hu
      have e : u ≠ t := by rintro rfl; rw [setTask_same] at hu; cases hu
      rw [setTask_other _ _ e] at hu
      exact ⟨hu, e⟩
    have abst : ∀ n' d, ({ a with constr := a.constr.filter (fun q => q.1 ≠ n), disk := d } :
        ArchStore).building n' = if n' = n then none else a.building n' := by
      intro n' d
      exact lookup_filter_ne _ _ _
    refine ⟨_, h.run.step (.finalize hfin), rfl, h.heap, h.sound, ?_, ?_, ?_, ?_⟩
    · intro n' hn
      refine (abst n' _).trans ?_
      show _ = s.store.building n'
      split
      · rename_i e
        rw [e]
        exact g1.symm
      · rename_i e
        refine h.same n' (fun u m hu => ?_)
        have e : u ≠ t := by
          rintro rfl
          rw [ht] at hu
          cases hu
          exact e rfl
        exact hn u m ((setTask_other _ _ e).trans hu)
    · intro u n' hu
      obtain ⟨hu', e⟩ := gone u _ hu
      obtain ⟨k1, k2, k3⟩ := h.creating u n' hu'
      refine ⟨k1, ?_, fun v x hv hx => k3 v x (gone v x hv).1 hx⟩
      show (ArchDir.storeLayerFile s.store.disk n _).layerExists n' = false
      rw [storeLayerFile_exists, k2, Bool.or_false, decide_eq_false_iff_not]
      rintro rfl
      exact e (g3 u _ hu' rfl)
    · intro u n' k hu
      obtain ⟨hu', e⟩ := gone u _ hu
      obtain ⟨k1, k2, k3, k4⟩ := h.getting u n' k hu'
      exact ⟨k1, k2, k3, fun v x hv hx => k4 v x (gone v x hv).1 hx⟩
    · intro u n' m' hu
      obtain ⟨hu', e⟩ := gone u _ hu
      obtain ⟨k1, k2, k3⟩ := h.finalizing u n' m' hu'
      refine ⟨k1, ?_, fun v x hv hx => k3 v x (gone v x hv).1 hx⟩
      refine (abst n' _).trans ?_
      rw [if_neg]
      · exact k2
      · rintro rfl
        exact e (g3 u _ hu' rfl)
  | @rollup d _ n r data hw hg =>
    have hw' : RollupFile.writeSync a.disk n data = .ok d := by rw [h.disk]; exact hw
    refine ⟨_, h.files (h.run.step (.rollup hw' hg)) rfl h.heap rfl rfl ?_⟩
    intro m hm
    show d.layerExists m = false
    rw [writeSync_layers hw]
    exact hm
  | startPoisoned ht hp => rw [h.sound.1] at hp; cases hp
  | goPoisoned ht hx hp => rw [h.sound.1] at hp; cases hp

theorem Run.sim {c : OffsetCodec} {s : ArchConc} {L : List ArchEvent} (h : Run true c s L) :
    ∃ a, Sim c s L a := by
  induction h with
  | start => exact ⟨_, .start c⟩
  | step _ hs ih =>
    obtain ⟨a, ih⟩ := ih
    exact ih.step hs

end ArchConc

end Verif
