import Mathlib.Data.List.FinRange
import Verif.Lemmas.CrashLoad

/-!
Every execution of the store is one of a process that writes the files.
-/

set_option linter.unusedSectionVars false

namespace Verif

variable {K V : Type} [LinearOrder K] [LinearOrder V]

open Store

namespace Proc

variable {c : LayerCodec K V} {trunc : Bool}

theorem Later.trans {p q r : Proc K V} (h : Later c trunc p q) (h' : Later c trunc q r) :
    Later c trunc p r := by
  induction h' with
  | now => exact h
  | step _ hs ih => exact .step ih hs

theorem Later.one {p q : Proc K V} (h : Step c trunc p q) : Later c trunc p q := .step .now h

theorem Later.run {p q : Proc K V} (h : Later c trunc p q) (hr : Run c trunc p) : Run c trunc q := by
  induction h with
  | now => exact hr
  | step _ hs ih => exact .step ih hs

/-- Write the files of a new layer, for the given kinds. -/
def writeFiles (c : LayerCodec K V) (n : Name) (e : Entry K V) : List FileKind → Disk → Disk
  | [], D => D
  | k :: ks, D => writeFiles c n e ks (match target c e k with
    | none => D
    | some b => D.put n k b)

theorem writeFiles_dir (n : Name) (e : Entry K V) : ∀ (ks : List FileKind) (D : Disk),
    (writeFiles c n e ks D).dir = D.dir
  | [], D => rfl
  | k :: ks, D => by
    simp only [writeFiles]
    rw [writeFiles_dir n e ks]
    split <;> rfl

theorem writeFiles_other {n m : Name} (h : m ≠ n) (e : Entry K V) : ∀ (ks : List FileKind) (D : Disk)
    (j : FileKind), (writeFiles c n e ks D).file m j = D.file m j
  | [], D, j => rfl
  | k :: ks, D, j => by
    simp only [writeFiles]
    rw [writeFiles_other h e ks]
    split
    · rfl
    · exact Disk.put_name h _ _ _

theorem writeFiles_rest (n : Name) (e : Entry K V) : ∀ (ks : List FileKind) (D : Disk)
    (j : FileKind), j ∉ ks → (writeFiles c n e ks D).file n j = D.file n j
  | [], D, j, _ => rfl
  | k :: ks, D, j, hj => by
    simp only [List.mem_cons, not_or] at hj
    simp only [writeFiles]
    rw [writeFiles_rest n e ks _ j hj.2]
    split
    · rfl
    · exact Disk.put_kind hj.1 _ _ _

theorem writeFiles_file (n : Name) (e : Entry K V) : ∀ (ks : List FileKind) (D : Disk)
    (_ : ks.Nodup) (_ : ∀ k ∈ ks, D.file n k = none), ∀ j ∈ ks,
    (writeFiles c n e ks D).file n j = target c e j
  | [], D, _, _, j, hj => by simp at hj
  | k :: ks, D, hnd, hf, j, hj => by
    obtain ⟨h1, h2⟩ := List.nodup_cons.1 hnd
    simp only [writeFiles]
    simp only [List.mem_cons] at hj
    rcases hj with rfl | hj
    · rw [writeFiles_rest n e ks _ j h1]
      cases ht : target c e j with
      | none => exact hf j (List.mem_cons_self ..)
      | some b => exact Disk.put_same _ _ _ _
    · refine writeFiles_file n e ks _ h2 ?_ j hj
      intro k' hk'
      have hne : k' ≠ k := by rintro rfl; exact h1 hk'
      split
      · exact hf k' (List.mem_cons_of_mem _ hk')
      · rw [Disk.put_kind hne]
        exact hf k' (List.mem_cons_of_mem _ hk')

theorem put_put (D : Disk) (n : Name) (k : FileKind) (a b : Bytes) :
    (D.put n k a).put n k b = D.put n k b := by
  unfold Disk.put
  simp only [Disk.mk.injEq, true_and]
  funext m j
  split <;> rfl

/-- The files can be written. -/
theorem later_writeFiles {n : Name} {e : Entry K V} : ∀ (ks : List FileKind) (p : Proc K V)
    (_ : (n, e) ∈ p.building) (_ : ks.Nodup) (_ : ∀ k ∈ ks, p.disk.file n k = none),
    Later c trunc p { p with disk := writeFiles c n e ks p.disk }
  | [], p, _, _, _ => .now
  | k :: ks, p, hb, hnd, hf => by
    obtain ⟨h1, h2⟩ := List.nodup_cons.1 hnd
    simp only [writeFiles]
    cases ht : target c e k with
    | none =>
      exact later_writeFiles ks p hb h2 (fun k' hk' => hf k' (List.mem_cons_of_mem _ hk'))
    | some b =>
      have s1 : Step c trunc p { p with disk := p.disk.put n k [] } :=
        .create hb ht (hf k (List.mem_cons_self ..))
      have s2 : Step c trunc { p with disk := p.disk.put n k [] }
          { p with disk := (p.disk.put n k []).put n k (b.take b.length) } :=
        .write (i := 0) (j := b.length) (p := { p with disk := p.disk.put n k [] }) hb ht
          (Nat.zero_le _) (Disk.put_same _ _ _ _)
      rw [put_put, List.take_length] at s2
      refine ((Later.one s1).trans (.one s2)).trans ?_
      refine later_writeFiles ks { p with disk := p.disk.put n k b } hb h2 ?_
      intro k' hk'
      have hne : k' ≠ k := by rintro rfl; exact h1 hk'
      show (p.disk.put n k b).file n k' = none
      rw [Disk.put_kind hne]
      exact hf k' (List.mem_cons_of_mem _ hk')

/-- Nothing is under way, and there is nothing that does not belong to a finished layer. -/
structure Idle (p : Proc K V) : Prop where
  building : p.building = []
  registering : p.registering = []
  cut : p.cut = []
  none : ∀ n, p.world.store.has n = false → p.disk.dir n = false ∧ ∀ k, p.disk.file n k = none

/-- A new layer is written. -/
theorem later_layer {p : Proc K V} (hi : Idle p) {new : Name} {e : Entry K V} {w' : World K V}
    (hn : p.world.store.has new = false) (hl : new < nameLimit) (hs : World.Step true p.world w')
    (hw : w'.store = (new, e) :: p.world.store) :
    ∃ p', Later c trunc p p' ∧ p'.world = w' ∧ p'.heads = p.heads ∧ Idle p' := by
  obtain ⟨h1, h2⟩ := hi.none new hn
  have s1 : Step c trunc p { p with disk := p.disk.mkdir new, building := (new, e) :: p.building } :=
    .mkdir h1 hl
  have s2 := later_writeFiles (c := c) (trunc := trunc) (n := new) (e := e) (List.finRange 50)
    { p with disk := p.disk.mkdir new, building := (new, e) :: p.building }
    (List.mem_cons_self ..) (List.nodup_finRange 50) (fun k _ => h2 k)
  have s3 : Step c trunc { p with
        disk := writeFiles c new e (List.finRange 50) (p.disk.mkdir new)
        building := (new, e) :: p.building } _ :=
    .finish (w' := w') (List.mem_cons_self ..) (fun k =>
      writeFiles_file new e (List.finRange 50) (p.disk.mkdir new) (List.nodup_finRange 50)
        (fun k _ => h2 k) k (List.mem_finRange k)) hs hw
  refine ⟨_, ((Later.one s1).trans s2).trans (.one s3), rfl, rfl, ?_, hi.registering, hi.cut, ?_⟩
  · simp [hi.building]
  · intro m hm
    have hm' : m ≠ new ∧ p.world.store.has m = false := by
      have : Store.has w'.store m = false := hm
      rw [hw] at this
      unfold Store.has Store.get? at this
      constructor
      · rintro rfl
        simp at this
      · split at this
        · simp at this
        · exact this
    obtain ⟨k1, k2⟩ := hi.none m hm'.2
    refine ⟨?_, ?_⟩
    · show (writeFiles c new e (List.finRange 50) (p.disk.mkdir new)).dir m = false
      rw [writeFiles_dir]
      simp [Disk.mkdir, hm'.1, k1]
    · intro k
      show (writeFiles c new e (List.finRange 50) (p.disk.mkdir new)).file m k = none
      rw [writeFiles_other hm'.1]
      exact k2 k

/-- A rollup is registered. -/
theorem later_register {p : Proc K V} (hi : Idle p) {n r : Name} (hr : (n, r) ∈ p.world.pending)
    (hn : p.world.store.has n = true) {w' : World K V} (hs : World.Step true p.world w')
    (hw : w'.store = registerRollup p.world.store n r) :
    ∃ p', Later c trunc p p' ∧ p'.world = w' ∧ p'.heads = p.heads ∧ Idle p' := by
  by_cases hne : n = r
  · refine ⟨{ p with world := w' }, .one (.memory hs ?_), rfl, rfl, hi.building, hi.registering,
      hi.cut, ?_⟩
    · rw [hw, registerRollup, if_pos hne]
    · intro m hm
      refine hi.none m ?_
      rw [← show w'.store.has m = false from hm, hw, registerRollup, if_pos hne]
  · have s1 : Step c trunc p _ := .openRollup hr hne (by rw [hi.registering]; simp) rfl
    have s2 : Step c trunc _ _ := .finishRollup
      (p := { p with
        disk := p.disk.put n FileKind.rollup
          (if trunc then [] else (p.disk.file n FileKind.rollup).getD [])
        registering := ⟨n, r, if trunc then [] else (p.disk.file n FileKind.rollup).getD []⟩ ::
          p.registering })
      (g := ⟨n, r, if trunc then [] else (p.disk.file n FileKind.rollup).getD []⟩) (i := 43)
      (List.mem_cons_self ..) (by rw [Registering.contents_length]; omega) hs hw
    refine ⟨_, (Later.one s1).trans (.one s2), rfl, rfl, hi.building, ?_, ?_, ?_⟩
    · simp [hi.registering]
    · simp [hi.cut]
    · intro m hm
      have hm' : p.world.store.has m = false := by
        rw [← show w'.store.has m = false from hm, hw, registerRollup_ne hne, has_setRollup]
      obtain ⟨k1, k2⟩ := hi.none m hm'
      refine ⟨k1, fun k => ?_⟩
      show ((p.disk.put n _ _).put n _ _).file m k = none
      rw [Disk.put_name (ne_of_has hn hm').symm, Disk.put_name (ne_of_has hn hm').symm]
      exact k2 k

theorem store_small {st : Store K V} {new : Name} {e : Entry K V}
    (h : ∀ n, Store.has ((new, e) :: st) n = true → n < nameLimit) :
    new < nameLimit ∧ (Store.get? st new = none → ∀ n, st.has n = true → n < nameLimit) := by
  refine ⟨h new (by simp [Store.has, Store.get?]), ?_⟩
  intro hn n hh
  exact h n (has_mono (Ext.cons hn e) hh)

/-- Every execution of the store is one of a process. -/
theorem realise {w : World K V} (h : World.Run true w)
    (hsm : ∀ n, w.store.has n = true → n < nameLimit) (c : LayerCodec K V) (trunc : Bool) :
    ∃ p, Run c trunc p ∧ p.world = w ∧ Idle p := by
  induction h with
  | start =>
    exact ⟨{}, .start, rfl, rfl, rfl, rfl, fun n _ => ⟨rfl, fun k => rfl⟩⟩
  | @step w w' hr hs ih =>
    have hold : ∀ n, w.store.has n = true → n < nameLimit := fun n hn =>
      hsm n (has_mono (World.Step.ext hs) hn)
    obtain ⟨p, hp, rfl, hi⟩ := ih hold
    have fin : (∃ p', Later c trunc p p' ∧ p'.world = w' ∧ p'.heads = p.heads ∧ Idle p') →
        ∃ p, Run c trunc p ∧ p.world = w' ∧ Idle p := by
      rintro ⟨p', h1, h2, _, h3⟩
      exact ⟨p', h1.run hp, h2, h3⟩
    have same : w'.store = p.world.store → ∃ p, Run c trunc p ∧ p.world = w' ∧ Idle p := by
      intro e
      refine ⟨_, .step hp (.memory hs e), rfl, hi.building, hi.registering, hi.cut, ?_⟩
      intro n hn
      exact hi.none n (by rw [← e]; exact hn)
    have write : ∀ new e, p.world.store.get? new = none → w'.store = (new, e) :: p.world.store →
        ∃ p, Run c trunc p ∧ p.world = w' ∧ Idle p := by
      intro new e hn hw
      refine fin (later_layer hi ?_ ?_ hs hw)
      · simp [Store.has, hn]
      · rw [hw] at hsm
        exact (store_small hsm).1
    have hs' := hs
    cases hs with
    | commitBase h1 _ _ => exact write _ _ h1 rfl
    | commit _ h1 _ _ => exact write _ _ h1 rfl
    | importLayer h1 _ _ _ _ _ _ => exact write _ _ h1 rfl
    | writeRollup _ h1 => exact write _ _ h1 rfl
    | writeSquash _ h1 => exact write _ _ h1 rfl
    | writeSquashUpto _ h1 => exact write _ _ h1 rfl
    | writeMerge _ h1 => exact write _ _ h1 rfl
    | register h1 =>
      refine fin (later_register hi h1 ?_ hs' rfl)
      obtain ⟨⟨S, _, hS, _⟩, _⟩ := hp.inv.run.inv.pending _ h1
      exact hS.has
    | _ => exact same rfl

end Proc

end Verif
