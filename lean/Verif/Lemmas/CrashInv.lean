import Verif.Lemmas.CrashFiles
import Verif.CrashSpec
import Verif.Lemmas.WorldMore

/-!
The invariant of a process that writes its layers file by file and may stop at any moment.
-/

set_option linter.unusedSectionVars false

namespace Verif

variable {K V : Type} [LinearOrder K] [LinearOrder V]

open Store

namespace Disk

@[simp] theorem mkdir_file (D : Disk) (n : Name) : (D.mkdir n).file = D.file := rfl

theorem mkdir_dir {D : Disk} {m : Name} (h : D.dir m = true) (n : Name) : (D.mkdir n).dir m = true := by
  simp only [mkdir]
  split
  · rfl
  · exact h

@[simp] theorem put_dir (D : Disk) (n : Name) (k : FileKind) (b : Bytes) : (D.put n k b).dir = D.dir := rfl

theorem put_same (D : Disk) (n : Name) (k : FileKind) (b : Bytes) : (D.put n k b).file n k = some b := by
  simp [put]

theorem put_name {D : Disk} {n m : Name} (h : m ≠ n) (k j : FileKind) (b : Bytes) :
    (D.put n k b).file m j = D.file m j := by
  simp [put, h]

theorem put_kind {D : Disk} {k j : FileKind} (h : j ≠ k) (n m : Name) (b : Bytes) :
    (D.put n k b).file m j = D.file m j := by
  simp [put, h]

end Disk

/-- What a rollup file says. -/
def RollupSays (f : Option Bytes) (r : Option Name) : Prop :=
  (r = none ∧ f = none) ∨ ∃ q b, r = some q ∧ f = some b ∧ Names b q

namespace Proc

/-- The invariant. -/
structure Inv (c : LayerCodec K V) (trunc : Bool) (p : Proc K V) : Prop where
  run : World.Run true p.world
  small : ∀ n, p.world.store.has n = true → n < nameLimit
  dir : ∀ n, p.world.store.has n = true → p.disk.dir n = true
  file : ∀ n e, p.world.store.get? n = some e → ∀ k, k ≠ FileKind.rollup →
    p.disk.file n k = target c e k
  rollup : ∀ n e, p.world.store.get? n = some e → ¬ p.Torn n →
    RollupSays (p.disk.file n FileKind.rollup) e.rollup
  torn : ∀ n, p.Torn n → ∃ b, p.disk.file n FileKind.rollup = some b ∧
    (trunc = true → ∃ x i, i < 42 ∧ b = (rollupFile x).take i)
  shaped : ∀ n b, p.world.store.has n = true → p.disk.file n FileKind.rollup = some b → Shaped b
  cut : ∀ n ∈ p.cut, p.world.store.has n = true
  building : ∀ q ∈ p.building, p.world.store.has q.1 = false ∧ q.1 < nameLimit ∧
    p.disk.dir q.1 = true
  registering : ∀ g ∈ p.registering, p.world.store.has g.layer = true ∧
    p.world.store.has g.rollup = true ∧ g.layer ≠ g.rollup ∧ Shaped g.old ∧
    (trunc = true → g.old = [])
  heads : ∀ n ∈ p.heads, p.world.store.has n = true

theorem Inv.start (c : LayerCodec K V) (trunc : Bool) : Inv c trunc ({} : Proc K V) where
  run := .start
  small := by intro n h; simp [Store.has, Store.get?] at h
  dir := by intro n h; simp [Store.has, Store.get?] at h
  file := by intro n e h; simp [Store.get?] at h
  rollup := by intro n e h; simp [Store.get?] at h
  torn := by
    intro n h
    rcases h with h | ⟨g, h, _⟩
    · simp at h
    · simp at h
  shaped := by intro n b h; simp [Store.has, Store.get?] at h
  cut := by intro n h; simp at h
  building := by intro n h; simp at h
  registering := by intro n h; simp at h
  heads := by intro n h; simp at h

theorem has_of_store {p q : World K V} (h : p.store = q.store) (n : Name) :
    p.store.has n = q.store.has n := by rw [h]

theorem ne_of_has {st : Store K V} {n m : Name} (h : st.has n = true) (h' : st.has m = false) : n ≠ m := by
  rintro rfl
  rw [h] at h'
  cases h'

theorem has_of_get {st : Store K V} {n : Name} {e : Entry K V} (h : st.get? n = some e) :
    st.has n = true := has_iff.2 ⟨e, h⟩

/-- A file of a layer that is not finished changes. -/
theorem Inv.other {c : LayerCodec K V} {trunc : Bool} {p : Proc K V} (h : Inv c trunc p) {n : Name}
    (hn : p.world.store.has n = false) (k : FileKind) (b : Bytes) :
    Inv c trunc { p with disk := p.disk.put n k b } where
  run := h.run
  small := h.small
  dir := h.dir
  file := by
    intro m e he j hj
    show (p.disk.put n k b).file m j = _
    rw [Disk.put_name (ne_of_has (has_of_get he) hn)]
    exact h.file m e he j hj
  rollup := by
    intro m e he ht
    show RollupSays ((p.disk.put n k b).file m _) _
    rw [Disk.put_name (ne_of_has (has_of_get he) hn)]
    exact h.rollup m e he ht
  torn := by
    intro m ht
    obtain ⟨b', h1, h2⟩ := h.torn m ht
    have hm : p.world.store.has m = true := by
      rcases ht with ht | ⟨g, hg, rfl⟩
      · exact h.cut m ht
      · exact (h.registering g hg).1
    refine ⟨b', ?_, h2⟩
    show (p.disk.put n k b).file m _ = _
    rw [Disk.put_name (ne_of_has hm hn)]
    exact h1
  shaped := by
    intro m b' hm hb
    refine h.shaped m b' hm ?_
    rw [← hb]
    show _ = (p.disk.put n k b).file m _
    rw [Disk.put_name (ne_of_has hm hn)]
  cut := h.cut
  building := h.building
  registering := h.registering
  heads := h.heads

/-- The world goes on without a change of the files. -/
theorem Inv.memory {c : LayerCodec K V} {trunc : Bool} {p : Proc K V} (h : Inv c trunc p)
    {w' : World K V} (hr : World.Run true w') (hs : w'.store = p.world.store) :
    Inv c trunc { p with world := w' } where
  run := hr
  small := by dsimp only; rw [hs]; exact h.small
  dir := by dsimp only; rw [hs]; exact h.dir
  file := by dsimp only; rw [hs]; exact h.file
  rollup := by dsimp only; rw [hs]; exact h.rollup
  torn := h.torn
  shaped := by dsimp only; rw [hs]; exact h.shaped
  cut := by dsimp only; rw [hs]; exact h.cut
  building := by dsimp only; rw [hs]; exact h.building
  registering := by dsimp only; rw [hs]; exact h.registering
  heads := by dsimp only; rw [hs]; exact h.heads

/-- A part of a rollup file is written. -/
theorem Inv.writeRollup {c : LayerCodec K V} {trunc : Bool} {p : Proc K V} (h : Inv c trunc p)
    {n : Name} {b : Bytes} (ht : p.Torn n) (hb : Shaped b)
    (hc : trunc = true → ∃ x i, i < 42 ∧ b = (rollupFile x).take i) :
    Inv c trunc { p with disk := p.disk.put n FileKind.rollup b } where
  run := h.run
  small := h.small
  dir := h.dir
  file := by
    intro m e he j hj
    show (p.disk.put n _ b).file m j = _
    rw [Disk.put_kind hj]
    exact h.file m e he j hj
  rollup := by
    intro m e he hm
    have hne : m ≠ n := by rintro rfl; exact hm ht
    show RollupSays ((p.disk.put n _ b).file m _) _
    rw [Disk.put_name hne]
    exact h.rollup m e he hm
  torn := by
    intro m hm
    show ∃ b', (p.disk.put n _ b).file m _ = some b' ∧ _
    by_cases e : m = n
    · subst e
      exact ⟨b, Disk.put_same _ _ _ _, hc⟩
    · rw [Disk.put_name e]
      exact h.torn m hm
  shaped := by
    intro m b' hm hb'
    replace hb' : (p.disk.put n _ b).file m _ = some b' := hb'
    by_cases e : m = n
    · subst e
      rw [Disk.put_same] at hb'
      cases hb'
      exact hb
    · rw [Disk.put_name e] at hb'
      exact h.shaped m b' hm hb'
  cut := h.cut
  building := h.building
  registering := h.registering
  heads := h.heads

theorem shaped_nil : Shaped [] := Or.inl rfl

theorem get?_cons_some {st : Store K V} {n m : Name} {e e' : Entry K V}
    (h : Store.get? ((n, e) :: st) m = some e') : (n = m ∧ e = e') ∨ (n ≠ m ∧ st.get? m = some e') := by
  unfold Store.get? at h
  split at h
  · left; cases h; exact ⟨‹_›, rfl⟩
  · right; exact ⟨‹_›, h⟩

/-- A new layer has no rollup. -/
theorem new_rollup {st : Store K V} {n : Name} {e : Entry K V} (ho : Ok ((n, e) :: st)) :
    e.rollup = none := by
  cases hr : e.rollup with
  | none => rfl
  | some r =>
    exfalso
    have h1 : Store.rollup? ((n, e) :: st) n = some r := by simp [rollup?, Store.get?, hr]
    have h2 := ho.order h1
    obtain ⟨_, R, _, hR, _⟩ := ho.rollup h1
    have h3 := index_lt hR.has
    rw [show Store.index ((n, e) :: st) n = st.length by simp [index]] at h2
    simp only [List.length_cons] at h3
    omega

theorem registerRollup_ne {st : Store K V} {n r : Name} (h : n ≠ r) :
    registerRollup st n r = st.setRollup n r := by simp [registerRollup, h]

theorem Inv.step {c : LayerCodec K V} {trunc : Bool} {p p' : Proc K V} (h : Inv c trunc p)
    (hs : Step c trunc p p') : Inv c trunc p' := by
  cases hs with
  | memory h1 h2 => exact h.memory (.step h.run h1) h2
  | @mkdir new e h1 h2 =>
    have hn : p.world.store.has new = false := by
      cases hh : p.world.store.has new with
      | false => rfl
      | true => rw [h.dir new hh] at h1; cases h1
    refine ⟨h.run, h.small, fun m hm => Disk.mkdir_dir (h.dir m hm) _, h.file, h.rollup, h.torn,
      h.shaped, h.cut, ?_, h.registering, h.heads⟩
    intro q hq
    simp only [List.mem_cons] at hq
    rcases hq with rfl | hq
    · exact ⟨hn, h2, by simp [Disk.mkdir]⟩
    · obtain ⟨g1, g2, g3⟩ := h.building q hq
      exact ⟨g1, g2, Disk.mkdir_dir g3 _⟩
  | create h1 h2 h3 => exact h.other (h.building _ h1).1 _ _
  | write h1 h2 h3 h4 => exact h.other (h.building _ h1).1 _ _
  | @finish new e w' h1 h2 h3 h4 =>
    obtain ⟨b1, b2, b3⟩ := h.building _ h1
    have hrun : World.Run true w' := .step h.run h3
    have hro : e.rollup = none := new_rollup (by rw [← h4]; exact hrun.inv.ok)
    have hx : ∀ m, p.world.store.has m = true → w'.store.has m = true :=
      fun m hm => has_mono (World.Step.ext h3) hm
    have hcases : ∀ m, w'.store.has m = true → m = new ∨ p.world.store.has m = true := by
      intro m hm
      obtain ⟨e', he'⟩ := has_iff.1 hm
      rw [h4] at he'
      rcases get?_cons_some he' with ⟨g1, _⟩ | ⟨_, g2⟩
      · exact Or.inl g1.symm
      · exact Or.inr (has_of_get g2)
    refine ⟨hrun, ?_, ?_, ?_, ?_, h.torn, ?_, fun m hm => hx m (h.cut m hm), ?_, ?_,
      fun m hm => hx m (h.heads m hm)⟩
    · intro m hm
      rcases hcases m hm with rfl | hm
      · exact b2
      · exact h.small m hm
    · intro m hm
      rcases hcases m hm with rfl | hm
      · exact b3
      · exact h.dir m hm
    · intro m e' he' k hk
      dsimp only at he'
      rw [h4] at he'
      rcases get?_cons_some he' with ⟨rfl, rfl⟩ | ⟨_, g2⟩
      · exact h2 k
      · exact h.file m e' g2 k hk
    · intro m e' he' ht
      dsimp only at he'
      rw [h4] at he'
      rcases get?_cons_some he' with ⟨rfl, rfl⟩ | ⟨_, g2⟩
      · refine Or.inl ⟨hro, ?_⟩
        show p.disk.file _ _ = none
        rw [h2]
        simp [target, FileKind.rollup, FileKind.parent]
      · exact h.rollup m e' g2 ht
    · intro m b hm hb
      rcases hcases m hm with rfl | hm
      · exfalso
        have := h2 FileKind.rollup
        rw [show p.disk.file m FileKind.rollup = some b from hb] at this
        simp [target, FileKind.rollup, FileKind.parent] at this
      · exact h.shaped m b hm hb
    · intro q hq
      simp only [List.mem_filter, decide_eq_true_eq] at hq
      obtain ⟨g1, g2, g3⟩ := h.building q hq.1
      refine ⟨?_, g2, g3⟩
      cases hh : w'.store.has q.1 with
      | false => rfl
      | true =>
        rcases hcases _ hh with e' | e'
        · exact absurd e' hq.2
        · rw [g1] at e'; cases e'
    · intro g hg
      obtain ⟨g1, g2, g3⟩ := h.registering g hg
      exact ⟨hx _ g1, hx _ g2, g3⟩
  | @openRollup n r old h1 h2 h3 h4 =>
    obtain ⟨⟨S, R, hS, hR, _⟩, _⟩ := h.run.inv.pending _ h1
    have hold : Shaped old := by
      rw [h4]
      split
      · exact shaped_nil
      · cases hf : p.disk.file n FileKind.rollup with
        | none => exact shaped_nil
        | some b => exact h.shaped n b hS.has hf
    have htr : trunc = true → old = [] := by
      intro ht
      rw [h4, ht]
      rfl
    refine ⟨h.run, h.small, h.dir, ?_, ?_, ?_, ?_, h.cut, h.building, ?_, h.heads⟩
    · intro m e he j hj
      show (p.disk.put n _ old).file m j = _
      rw [Disk.put_kind hj]
      exact h.file m e he j hj
    · intro m e he hm
      have hne : m ≠ n := by
        rintro rfl
        exact hm (Or.inr ⟨_, List.mem_cons_self .., rfl⟩)
      show RollupSays ((p.disk.put n _ old).file m _) _
      rw [Disk.put_name hne]
      refine h.rollup m e he ?_
      rintro (ht | ⟨g, hg, ht⟩)
      · exact hm (Or.inl ht)
      · exact hm (Or.inr ⟨g, List.mem_cons_of_mem _ hg, ht⟩)
    · intro m hm
      show ∃ b', (p.disk.put n _ old).file m _ = some b' ∧ _
      by_cases e : m = n
      · subst e
        exact ⟨old, Disk.put_same _ _ _ _, fun ht => ⟨⟨0, 0, 0, 0, 0⟩, 0, by decide, by rw [htr ht]; rfl⟩⟩
      · rw [Disk.put_name e]
        refine h.torn m ?_
        rcases hm with hm | ⟨g, hg, hm⟩
        · exact Or.inl hm
        · simp only [List.mem_cons] at hg
          rcases hg with rfl | hg
          · exact absurd hm.symm e
          · exact Or.inr ⟨g, hg, hm⟩
    · intro m b' hm hb'
      replace hb' : (p.disk.put n _ old).file m _ = some b' := hb'
      by_cases e : m = n
      · subst e
        rw [Disk.put_same] at hb'
        cases hb'
        exact hold
      · rw [Disk.put_name e] at hb'
        exact h.shaped m b' hm hb'
    · intro g hg
      simp only [List.mem_cons] at hg
      rcases hg with rfl | hg
      · exact ⟨hS.has, hR.has, h2, hold, htr⟩
      · exact h.registering g hg
  | @writeRollup g i h1 h2 =>
    obtain ⟨g1, g2, g3, g4, g5⟩ := h.registering g h1
    rw [g.contents_length] at h2
    refine h.writeRollup (Or.inr ⟨g, h1, rfl⟩) (Registering.part_shaped g4 (by omega)) ?_
    intro ht
    exact ⟨_, i, by omega, Registering.part_first (g5 ht) i⟩
  | @finishRollup g w' i h1 h2 h3 h4 =>
    obtain ⟨g1, g2, g3, g4, g5⟩ := h.registering g h1
    rw [g.contents_length] at h2
    have hnm : Names (g.part i) g.rollup := Registering.part_names g4 (by omega)
    rw [registerRollup_ne g3] at h4
    have hrun : World.Run true w' := .step h.run h3
    have hhas : ∀ m, w'.store.has m = p.world.store.has m := by
      intro m
      rw [h4, has_setRollup]
    have htorn : ∀ m, Torn { p with
        world := w'
        disk := p.disk.put g.layer FileKind.rollup (g.part i)
        registering := p.registering.filter (fun q => q.layer ≠ g.layer)
        cut := p.cut.filter (· ≠ g.layer) } m ↔ m ≠ g.layer ∧ p.Torn m := by
      intro m
      simp only [Torn, List.mem_filter, decide_eq_true_eq]
      constructor
      · rintro (⟨k1, k2⟩ | ⟨q, ⟨k1, k2⟩, rfl⟩)
        · exact ⟨k2, Or.inl k1⟩
        · exact ⟨k2, Or.inr ⟨q, k1, rfl⟩⟩
      · rintro ⟨k0, k1 | ⟨q, k1, rfl⟩⟩
        · exact Or.inl ⟨k1, k0⟩
        · exact Or.inr ⟨q, ⟨k1, k0⟩, rfl⟩
    refine ⟨hrun, ?_, ?_, ?_, ?_, ?_, ?_, ?_, ?_, ?_, ?_⟩
    · intro m hm
      exact h.small m (by rw [← hhas]; exact hm)
    · intro m hm
      exact h.dir m (by rw [← hhas]; exact hm)
    · intro m e he k hk
      show (p.disk.put g.layer _ _).file m k = _
      rw [Disk.put_kind hk]
      replace he : w'.store.get? m = some e := he
      rw [h4, get?_setRollup] at he
      split at he
      · obtain ⟨e0, k1, rfl⟩ := Option.map_eq_some_iff.1 he
        exact h.file m e0 k1 k hk
      · exact h.file m e he k hk
    · intro m e he hm
      rw [htorn] at hm
      replace he : w'.store.get? m = some e := he
      rw [h4, get?_setRollup] at he
      show RollupSays ((p.disk.put g.layer _ _).file m _) _
      by_cases em : m = g.layer
      · rw [if_pos em] at he
        obtain ⟨e0, k1, rfl⟩ := Option.map_eq_some_iff.1 he
        subst em
        rw [Disk.put_same]
        exact Or.inr ⟨_, _, rfl, rfl, hnm⟩
      · rw [if_neg em] at he
        rw [Disk.put_name em]
        exact h.rollup m e he (fun ht => hm ⟨em, ht⟩)
    · intro m hm
      rw [htorn] at hm
      show ∃ b', (p.disk.put g.layer _ _).file m _ = some b' ∧ _
      rw [Disk.put_name hm.1]
      exact h.torn m hm.2
    · intro m b' hm hb'
      replace hb' : (p.disk.put g.layer _ _).file m _ = some b' := hb'
      by_cases e : m = g.layer
      · subst e
        rw [Disk.put_same] at hb'
        cases hb'
        exact hnm.shaped
      · rw [Disk.put_name e] at hb'
        exact h.shaped m b' (by rw [← hhas]; exact hm) hb'
    · intro m hm
      simp only [List.mem_filter] at hm
      show w'.store.has m = true
      rw [hhas]
      exact h.cut m hm.1
    · intro q hq
      obtain ⟨k1, k2⟩ := h.building q hq
      refine ⟨?_, k2⟩
      show w'.store.has q.1 = false
      rw [hhas]
      exact k1
    · intro q hq
      simp only [List.mem_filter] at hq
      obtain ⟨k1, k2, k3⟩ := h.registering q hq.1
      refine ⟨?_, ?_, k3⟩
      · show w'.store.has _ = true
        rw [hhas]
        exact k1
      · show w'.store.has _ = true
        rw [hhas]
        exact k2
    · intro m hm
      show w'.store.has m = true
      rw [hhas]
      exact h.heads m hm
  | @setHead n l h1 =>
    refine ⟨h.run, h.small, h.dir, h.file, h.rollup, h.torn, h.shaped, h.cut, h.building,
      h.registering, ?_⟩
    intro m hm
    simp only [List.mem_cons] at hm
    rcases hm with rfl | hm
    · obtain ⟨S, hS, _⟩ := (h.run.inv.held _ h1).1.stands h.run.inv.ok
      exact hS.has
    · exact h.heads m hm
  | crash =>
    have hrun : World.Run true { p.world with cache := Store.noCache, past := p.world.seen } :=
      .step h.run (.evict (by intro n l hl; cases hl))
    have h' := h.memory hrun rfl
    have htorn : ∀ m, Torn { p with
        world := { p.world with cache := Store.noCache, past := p.world.seen }
        building := []
        registering := []
        cut := p.registering.map (·.layer) ++ p.cut } m ↔ p.Torn m := by
      intro m
      simp only [Torn, List.mem_append, List.mem_map, List.not_mem_nil, false_and, exists_false,
        or_false]
      exact or_comm
    refine ⟨hrun, h'.small, h'.dir, h'.file, ?_, ?_, h'.shaped, ?_, by simp, by simp, h'.heads⟩
    · intro m e he hm
      rw [htorn] at hm
      exact h.rollup m e he hm
    · intro m hm
      rw [htorn] at hm
      exact h.torn m hm
    · intro m hm
      simp only [List.mem_append, List.mem_map] at hm
      rcases hm with ⟨g, hg, rfl⟩ | hm
      · exact (h.registering g hg).1
      · exact h.cut m hm

theorem Run.inv {c : LayerCodec K V} {trunc : Bool} {p : Proc K V} (h : Run c trunc p) :
    Inv c trunc p := by
  induction h with
  | start => exact Inv.start c trunc
  | step _ hs ih => exact ih.step hs

end Proc

end Verif
