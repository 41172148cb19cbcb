import Mathlib.Tactic.DeriveEncodable
import Mathlib.Logic.Equiv.List
import Verif.Lemmas.CrashReal
import Verif.Props.StoreWitness
import Verif.Props.Store

/-!
C52: what is left when the process stops at any moment.

The theorems are about every way to write the contents of layers to files (`LayerCodec`), and hold
whether or not opening a file for writing truncates it, if nothing else is said. The execution
before the crash, and after it, is any execution of many tasks.
-/

set_option linter.unusedSectionVars false

namespace Verif

open Store Spec

variable {K V : Type} [LinearOrder K] [LinearOrder V]

/-! ### A way to write layers to files -/

deriving instance Encodable for AdjList
deriving instance Encodable for TripleIndex
instance : Encodable IdMap := inferInstanceAs (Encodable (Option (List Nat)))
deriving instance Encodable for LayerData

namespace Witness

/-- All contents in one file, as one number. -/
def oneFile : LayerCodec Nat Nat where
  files _ d k := if k = 0 then some [Encodable.encode d] else none
  read _ g :=
    match g 0 with
    | some [x] => Out.ofOption (Encodable.decode x)
    | _ => .err
  read_files := by
    intro d S _ _ _ g hg
    refine ⟨d, ?_, fun _ => rfl⟩
    rw [hg 0 (by decide) (by decide)]
    simp [Encodable.encodek, Out.ofOption]

end Witness

namespace Proc

variable {c : LayerCodec K V} {trunc : Bool}

theorem Step.world {p p' : Proc K V} (h : Step c trunc p p') :
    p'.world = p.world ∨ World.Step true p.world p'.world := by
  cases h with
  | memory h1 _ => exact Or.inr h1
  | finish _ _ h1 _ => exact Or.inr h1
  | finishRollup _ _ h1 _ => exact Or.inr h1
  | crash => exact Or.inr (.evict (by intro n l hl; cases hl))
  | _ => exact Or.inl rfl

theorem Later.world {p p' : Proc K V} (h : Later c trunc p p') :
    World.Later true p.world p'.world := by
  induction h with
  | now => exact .now
  | step _ hs ih =>
    rcases hs.world with e | e
    · rw [e]; exact ih
    · exact .step ih e

/-! ### The layers -/

/-- C52, in part: however a process runs and wherever it stops, a layer that a caller had at some
moment is loaded by a new process at any later moment, and answers all queries as it did.
Missing: layers whose loading reads a rollup file that is just being written or whose writing was
cut off, see `C52_rollup_wrong`. -/
theorem C52_layers_partial {p p' : Proc K V} (h : Run c trunc p) (hl : Later c trunc p p') {n : Name}
    {l : InternalLayer K V} (hn : (n, l) ∈ p.world.held) (hc : p'.Clear n) :
    ∃ l', p'.disk.getLayer c p'.world.store.loadFuel n = .ok (some l') ∧
      SameAnswers l.stack l'.stack := by
  have hi := (hl.run h).inv
  have hk := hi.run.inv.held _ (hl.world.held _ hn)
  have hhas : p'.world.store.has n = true := by
    obtain ⟨S, hS, _⟩ := hk.2
    exact hS.has
  obtain ⟨l', cs, h1, h2 | h2⟩ := hi.getLayer hhas
  · obtain ⟨m, k1, k2, _⟩ := h2
    exact absurd k2 (hc m k1)
  · obtain ⟨g1, _, _⟩ := getLayer_ok hi.run.inv.ok (cacheOk_noCache _) h1
    exact ⟨l', h2, (World.Stands.alike hk.2 (g1 l' rfl).2).answers⟩

/-- C52, in part: the same for the contents, as the history of the operations that were completed
gives them. -/
theorem C52_contents_partial {p : Proc K V} (h : Run c trunc p) {n : Name} (hn : p.world.log.known n)
    (hc : p.Clear n) :
    ∃ l, p.disk.getLayer c p.world.store.loadFuel n = .ok (some l) ∧
      ∀ t, ∃ b, Stack.valueTripleExists l.stack t = some b ∧ (b = true ↔ p.world.log.triples n t) := by
  have hi := h.inv
  obtain ⟨l', cs, h1, h2 | h2⟩ := hi.getLayer ((hi.run.shape.known n).2 hn)
  · obtain ⟨m, k1, k2, _⟩ := h2
    exact absurd k2 (hc m k1)
  · obtain ⟨g1, _, _⟩ := getLayer_ok hi.run.inv.ok (cacheOk_noCache _) h1
    exact ⟨l', h2, hi.run.inv.exists_iff (g1 l' rfl).2⟩

/-- C52, in part: if opening a rollup file truncates it, then a new process never reads anything
wrong: a layer that was finished is loaded with the contents it has, or there is an error. -/
theorem C52_never_wrong_partial {p : Proc K V} (h : Run c true p) {n : Name}
    (hn : p.world.log.known n) :
    p.disk.getLayer c p.world.store.loadFuel n = .err ∨
    ∃ l, p.disk.getLayer c p.world.store.loadFuel n = .ok (some l) ∧
      ∀ t, ∃ b, Stack.valueTripleExists l.stack t = some b ∧ (b = true ↔ p.world.log.triples n t) := by
  have hi := h.inv
  obtain ⟨l', cs, h1, h2 | h2⟩ := hi.getLayer ((hi.run.shape.known n).2 hn)
  · obtain ⟨m, _, _, k3⟩ := h2
    exact Or.inl (k3 rfl)
  · obtain ⟨g1, _, _⟩ := getLayer_ok hi.run.inv.ok (cacheOk_noCache _) h1
    exact Or.inr ⟨l', h2, hi.run.inv.exists_iff (g1 l' rfl).2⟩

/-- C52: whatever happens, no file of a finished layer changes, but for its rollup file, and its
directory stays. -/
theorem C52_files_stay {p p' : Proc K V} (h : Run c trunc p) (hl : Later c trunc p p') {n : Name}
    (hn : p.world.log.known n) :
    p'.disk.dir n = true ∧ ∀ k, k ≠ FileKind.rollup → p'.disk.file n k = p.disk.file n k := by
  have hi := h.inv
  have hi' := (hl.run h).inv
  obtain ⟨e, he⟩ := has_iff.1 ((hi.run.shape.known n).2 hn)
  obtain ⟨e', he', h1, h2⟩ := hl.world.ext n e he
  refine ⟨hi'.dir n (has_of_get he'), fun k hk => ?_⟩
  rw [hi'.file n e' he' k hk, hi.file n e he k hk]
  simp only [target, h1, h2]

/-- C52: the parent of every finished layer can always be read. -/
theorem C52_parents {p : Proc K V} (h : Run c trunc p) {n : Name} (hn : p.world.log.known n) :
    p.disk.layerParent n = .ok (p.world.log.parent n) := by
  have hi := h.inv
  have hh := (hi.run.shape.known n).2 hn
  rw [Disk.layerParent, if_pos (hi.dir n hh), hi.readParent hh, hi.run.shape.parent]

/-- C52: a layer that was not finished is not the head of a graph, and no finished layer has it as
its parent or as its rollup. -/
theorem C52_unfinished {p : Proc K V} (h : Run c trunc p) {n : Name} (hn : ¬ p.world.log.known n) :
    n ∉ p.heads ∧ ∀ m, p.world.log.known m → p.disk.layerParent m ≠ .ok (some n) ∧
      (¬ p.Torn m → p.disk.rollup m ≠ .ok (some n)) := by
  have hi := h.inv
  have hh : ¬ p.world.store.has n = true := fun e => hn ((hi.run.shape.known n).1 e)
  refine ⟨fun hd => hh (hi.heads n hd), fun m hm => ⟨?_, fun ht => ?_⟩⟩
  · rw [C52_parents h hm]
    intro e
    simp only [Out.ok.injEq] at e
    obtain ⟨e1, he1⟩ := has_iff.1 ((hi.run.shape.known m).2 hm)
    obtain ⟨S, hS, _⟩ := hi.run.inv.ok.raw he1
    exact hh (hS.parent_has (by rw [hi.run.shape.parent]; exact e))
  · rw [hi.readRollup ((hi.run.shape.known m).2 hm) ht]
    intro e
    simp only [Out.ok.injEq] at e
    obtain ⟨_, R, _, hR, _⟩ := hi.run.inv.ok.rollup e
    exact hh hR.has

/-- C52: the head of every graph is a finished layer, whatever was cut off. -/
theorem C52_heads {p p' : Proc K V} (h : Run c trunc p) (hl : Later c trunc p p') {n : Name}
    (hn : n ∈ p.heads) : p.world.log.known n ∧ p'.world.log.known n := by
  have hi := h.inv
  have h1 := (hi.run.shape.known n).1 (hi.heads n hn)
  refine ⟨h1, ?_⟩
  have hh := (hi.run.shape.known n).2 h1
  exact (((hl.run h).inv.run.shape.known n)).1 (has_mono hl.world.ext hh)

/-! ### Executions with a crash -/

/-- Every execution of the store whose names are names can be followed by a crash in the middle of
writing a new layer. -/
theorem crash_building {w : World K V} (h : World.Run true w)
    (hsm : ∀ n, w.store.has n = true → n < nameLimit) {new : Name} (hn : w.store.has new = false)
    (hl : new < nameLimit) (e : Entry K V) (k : FileKind) {b : Bytes} (hb : target c e k = some b)
    (i : Nat) :
    ∃ p, Run c trunc p ∧ p.world.store = w.store ∧ p.world.held = w.held ∧ p.world.log = w.log ∧
      p.cut = [] ∧ p.registering = [] ∧ p.building = [] ∧ p.disk.dir new = true ∧
      p.disk.file new k = some (b.take i) := by
  obtain ⟨p, h1, rfl, hi⟩ := realise h hsm c trunc
  obtain ⟨k1, k2⟩ := hi.none new hn
  have s1 : Step c trunc p { p with disk := p.disk.mkdir new, building := (new, e) :: p.building } :=
    .mkdir k1 hl
  have s2 : Step c trunc { p with disk := p.disk.mkdir new, building := (new, e) :: p.building }
      { p with disk := (p.disk.mkdir new).put new k [], building := (new, e) :: p.building } :=
    .create (List.mem_cons_self ..) hb (k2 k)
  have s3 : Step c trunc
      { p with disk := (p.disk.mkdir new).put new k [], building := (new, e) :: p.building }
      { p with
        disk := ((p.disk.mkdir new).put new k []).put new k (b.take i)
        building := (new, e) :: p.building } :=
    .write (i := 0) (List.mem_cons_self ..) hb (Nat.zero_le _) (Disk.put_same _ _ _ _)
  refine ⟨_, .step (.step (.step (.step h1 s1) s2) s3) .crash, rfl, rfl, rfl, ?_, rfl, rfl, ?_, ?_⟩
  · simp [hi.cut, hi.registering]
  · show (p.disk.mkdir new).dir new = true
    simp [Disk.mkdir]
  · exact Disk.put_same _ _ _ _

theorem Clear.of_none {p : Proc K V} (h1 : p.cut = []) (h2 : p.registering = []) (n : Name) :
    p.Clear n := by
  intro m _ ht
  rcases ht with ht | ⟨g, hg, _⟩
  · rw [h1] at ht; cases ht
  · rw [h2] at hg; cases hg

/-- The names of a world are names. -/
def smallNames (w : World K V) : Bool := w.store.all (fun q => decide (q.1 < nameLimit))

theorem get?_mem' {n : Name} {e : Entry K V} : ∀ {st : Store K V}, st.get? n = some e → (n, e) ∈ st
  | [], h => by cases h
  | (m, e') :: st, h => by
    rcases get?_cons_some h with ⟨rfl, rfl⟩ | ⟨_, g⟩
    · exact List.mem_cons_self ..
    · exact List.mem_cons_of_mem _ (get?_mem' g)

theorem smallNames_sound {w : World K V} (h : smallNames w = true) (n : Name)
    (hn : w.store.has n = true) : n < nameLimit := by
  unfold smallNames at h
  obtain ⟨e, he⟩ := has_iff.1 hn
  have : (n, e) ∈ w.store := get?_mem' he
  simpa using List.all_eq_true.1 h _ this

/-- Beside C52: a crash in the middle of writing the parent file of a child of 102; the file has
seven bytes. All layers load, the new one is the head of nothing. -/
example : ∃ (p : Proc Nat Nat) (l : InternalLayer Nat Nat), Run Witness.oneFile true p ∧
    (102, l) ∈ p.world.held ∧ p.Clear 102 ∧ p.world.log.known 102 ∧ ¬ p.world.log.known 500 ∧
    p.disk.dir 500 = true ∧ p.disk.file 500 FileKind.parent = some [48, 48, 48, 48, 48, 48, 48] := by
  obtain ⟨w, h1, h2⟩ := Witness.reaches_run (safe := true) (cs := Witness.commits)
    (P := fun w => smallNames w = true ∧ w.store.has 500 = false ∧ w.store.has 102 = true ∧
      (World.lookup 102 w.held).isSome = true) (by decide)
  obtain ⟨h3, h4, h5, h6⟩ := h2
  obtain ⟨l, hl⟩ := Option.isSome_iff_exists.1 h6
  obtain ⟨e, he⟩ := has_iff.1 h5
  obtain ⟨p, p1, p2, p3, p4, p5, p6, p7, p8, p9⟩ := crash_building (c := Witness.oneFile)
    (trunc := true) h1 (smallNames_sound h3) h4 (by decide) { e with parent := some 102 }
    FileKind.parent (b := parentFile (layerName 102)) rfl 7
  refine ⟨p, l, p1, ?_, Clear.of_none p5 p6 102, ?_, ?_, p8, ?_⟩
  · rw [p3]; exact World.lookup_mem hl
  · rw [p4]; exact (h1.shape.known 102).1 h5
  · rw [p4]
    intro hk
    rw [(h1.shape.known 500).2 hk] at h4
    cases h4
  · rw [p9]; decide

/-! ### Rollup files that are cut off -/

theorem getLayer_torn {D : Disk} {n : Name} (hd : D.dir n = true)
    (hf : D.file n FileKind.rollup = some []) (f : Nat) : D.getLayer c (f + 1) n = .err := by
  have hr : D.rollup n = .err := by
    unfold Disk.rollup
    rw [hf]
    rfl
  simp only [Disk.getLayer, hd, if_true, Disk.find]
  rw [show Pending.current (n, none) = n from rfl, hr]
  rfl

/-- Not C52: whenever a rollup is about to be registered for a layer that has none, a crash during
the registration leaves a store in which that layer cannot be loaded any more. Before, it could
be loaded. -/
theorem C52_rollup_wrong (c : LayerCodec K V) (trunc : Bool) {w : World K V} (h : World.Run true w)
    (hsm : ∀ n, w.store.has n = true → n < nameLimit) {n r : Name} (hp : (n, r) ∈ w.pending)
    (hne : n ≠ r) (hr : w.store.rollup? n = none) :
    ∃ p p', Run c trunc p ∧ Later c trunc p p' ∧ p'.world.log = p.world.log ∧
      (∃ l, p.disk.getLayer c p.world.store.loadFuel n = .ok (some l)) ∧
      p'.building = [] ∧ p'.registering = [] ∧ ∀ f, p'.disk.getLayer c (f + 1) n = .err := by
  obtain ⟨p, h1, rfl, hi⟩ := realise h hsm c trunc
  have hhas : p.world.store.has n = true := by
    obtain ⟨⟨S, _, hS, _⟩, _⟩ := h.inv.pending _ hp
    exact hS.has
  have hclear := Clear.of_none hi.cut hi.registering
  have hold : (if trunc then [] else (p.disk.file n FileKind.rollup).getD []) = [] := by
    obtain ⟨e, he⟩ := has_iff.1 hhas
    rcases h1.inv.rollup n e he (hclear n n .self) with ⟨_, g⟩ | ⟨q, b, g, _⟩
    · rw [g]; cases trunc <;> rfl
    · simp [rollup?, he, g] at hr
  have s1 : Step c trunc p _ := .openRollup hp hne (by rw [hi.registering]; simp) hold.symm
  refine ⟨p, _, h1, .step (.one s1) .crash, rfl, ?_, rfl, rfl, ?_⟩
  · obtain ⟨l, h2, _⟩ := C52_contents_partial h1 ((h.shape.known n).1 hhas) (hclear n)
    exact ⟨l, h2⟩
  · exact getLayer_torn (h1.inv.dir n hhas) (Disk.put_same _ _ _ _)

/-- Not C52, nor what is said of tasks that run at the same time: without any crash a task that
loads the layer during the registration may fail. -/
theorem C52_rollup_reader_wrong (c : LayerCodec K V) (trunc : Bool) {w : World K V}
    (h : World.Run true w) (hsm : ∀ n, w.store.has n = true → n < nameLimit) {n r : Name}
    (hp : (n, r) ∈ w.pending) (hne : n ≠ r) (hr : w.store.rollup? n = none) :
    ∃ p, Run c trunc p ∧ p.world = w ∧ p.cut = [] ∧ (∃ g ∈ p.registering, g.layer = n) ∧
      ∀ f, p.disk.getLayer c (f + 1) n = .err := by
  obtain ⟨p, h1, rfl, hi⟩ := realise h hsm c trunc
  have hhas : p.world.store.has n = true := by
    obtain ⟨⟨S, _, hS, _⟩, _⟩ := h.inv.pending _ hp
    exact hS.has
  have hold : (if trunc then [] else (p.disk.file n FileKind.rollup).getD []) = [] := by
    obtain ⟨e, he⟩ := has_iff.1 hhas
    rcases h1.inv.rollup n e he (Clear.of_none hi.cut hi.registering n n .self) with
      ⟨_, g⟩ | ⟨q, b, g, _⟩
    · rw [g]; cases trunc <;> rfl
    · simp [rollup?, he, g] at hr
  have s1 : Step c trunc p _ := .openRollup hp hne (by rw [hi.registering]; simp) hold.symm
  exact ⟨_, .step h1 s1, rfl, hi.cut, ⟨_, List.mem_cons_self .., rfl⟩,
    getLayer_torn (h1.inv.dir n hhas) (Disk.put_same _ _ _ _)⟩

/-- A rollup that is made but not registered. -/
theorem pending_rollup {w : World K V} (h : World.Run true w) {q : Name} {l : InternalLayer K V}
    (hl : (q, l) ∈ w.held) (hp : l.parentName ≠ none) (hr : w.store.rollup? l.name = none)
    {new : Name} (hn : w.store.get? new = none) :
    ∃ w', World.Run true w' ∧ (l.name, new) ∈ w'.pending ∧ ∃ e, w'.store = (new, e) :: w.store := by
  obtain ⟨pl, h1⟩ := performRollup_total h.inv.ok (h.inv.held _ hl).1
  have h2 := h1
  unfold performRollup at h2
  cases hpa : l.parentName with
  | none => exact absurd hpa hp
  | some x =>
    simp only [hpa, hr] at h2
    obtain ⟨d, _, h4⟩ := Out.bind_eq_ok.1 h2
    simp only [Out.pure_eq, Out.ok.injEq] at h4
    subst h4
    exact ⟨_, .step (.step h (.planRollup hl h1)) (.writeRollup (List.mem_cons_self ..) hn),
      List.mem_cons_self .., _, rfl⟩

/-- Beside C52: the layer 102 is rolled up; while the rollup is registered the process stops. -/
example (trunc : Bool) : ∃ p p' : Proc Nat Nat, Run Witness.oneFile trunc p ∧
    Later Witness.oneFile trunc p p' ∧
    (∃ l, p.disk.getLayer Witness.oneFile p.world.store.loadFuel 102 = .ok (some l)) ∧
    ∀ f, p'.disk.getLayer Witness.oneFile (f + 1) 102 = .err := by
  obtain ⟨w, h1, h2, h3, h4, h5⟩ := Witness.reaches_run (safe := true) (cs := Witness.commits)
    (P := fun w => smallNames w = true ∧ w.store.get? 200 = none ∧ w.store.rollup? 102 = none ∧
      ((World.lookup 102 w.held).any fun l => l.name = 102 ∧ l.parentName ≠ none) = true) (by decide)
  obtain ⟨l, hl, h6⟩ := (Option.any_eq_true _ _).1 h5
  simp only [decide_eq_true_eq] at h6
  obtain ⟨w', k1, k2, e, k3⟩ := pending_rollup h1 (World.lookup_mem hl) h6.2
    (by rw [h6.1]; exact h4) h3
  rw [h6.1] at k2
  obtain ⟨p, p', q1, q2, _, q3, _, _, q4⟩ := C52_rollup_wrong Witness.oneFile trunc k1 (by
    intro n hn
    rw [k3] at hn
    obtain ⟨e', he'⟩ := has_iff.1 hn
    rcases get?_cons_some he' with ⟨rfl, _⟩ | ⟨_, g⟩
    · decide
    · exact smallNames_sound h2 n (has_of_get g)) k2 (by decide) (by
    rw [k3]
    simpa [rollup?, Store.get?] using h4)
  exact ⟨p, p', q1, q2, q3, q4⟩

end Proc

end Verif
