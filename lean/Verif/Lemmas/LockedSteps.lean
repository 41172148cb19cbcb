import Verif.Lemmas.LockedSim

/-!
Each step of the directory store on file locks is one step of the simple system or none.
-/

namespace Verif

open Spec

variable {L : Type} [DecidableEq L]

namespace LockedLabels

set_option linter.unusedSectionVars false

open DirLabels (upd readResult setResult)

variable {s : LockedLabels L} {d : DirLabels L} {φ : Nat → Nat} {i : Nat}

theorem writeAt_end (b c : Bytes) : writeAt b b.length c = b ++ c := by
  simp [writeAt]

theorem readLabelFile_nil (l : LabelData LayerName) : readLabelFile [] ≠ .ok l := by
  have e : readLabelFile [] = .err := by decide
  rw [e]
  exact fun h => by cases h

theorem putCall_same {N : Type} (h : LabelHistory L N) (i : Nat) (c : LabelCall L N) :
    putCall h i c i = some c := by
  simp [putCall]

theorem putCall_other {N : Type} (h : LabelHistory L N) {i j : Nat} (c : LabelCall L N) (hj : j ≠ i) :
    putCall h i c j = h j := by
  simp [putCall, hj]

/-- If call `i` was not writing, nobody was whom nobody writes after its step. -/
theorem not_writing_before {s' : LockedLabels L} {x : Nat}
    (hp : ∀ j, j ≠ i → s'.phase j = s.phase j)
    (hi : ∀ pos rest r, s.phase i ≠ .writing x pos rest r)
    (h : ∀ k pos rest r, s'.phase k ≠ .writing x pos rest r) :
    ∀ k pos rest r, s.phase k ≠ .writing x pos rest r := by
  intro k pos rest r
  by_cases hk : k = i
  · rw [hk]
    exact hi pos rest r
  · rw [← hp k hk]
    exact h k pos rest r

/-! ### Steps that the simple system does not make -/

theorem Sim.lockToRead (h : Sim s d φ) {x : Nat} {c : LabelCall L LayerName} {n : L}
    (hc : s.calls i = some c) (hp : s.phase i = .waiting x) (ho : c.op = .get n)
    (hx : s.exclusive x = none) : Sim ((s.lockShared i x).goto i (.reading x [])) d φ := by
  refine h.alone hc (q := .reading x []) rfl rfl rfl rfl rfl (fun _ _ _ hj => hj) ?_ ?_
    (fun _ _ _ _ _ => rfl) ?_ ?_
  · intro j y _ hj
    show j ∈ upd s.shared x (i :: s.shared x) y
    by_cases hy : y = x
    · subst hy
      rw [upd_same]
      exact List.mem_cons_of_mem _ hj
    · rw [upd_other _ _ hy]
      exact hj
  · intro y k hk
    show upd s.shared x (i :: s.shared x) y = []
    have hk' : s.exclusive y = some k := hk
    have hy : y ≠ x := by rintro rfl; rw [hx] at hk'; cases hk'
    rw [upd_other _ _ hy]
    exact h.lock y k hk'
  · intro y hy
    exact h.data y (not_writing_before (i := i) (fun j hj => upd_other _ _ hj)
      (by rw [hp]; intro _ _ _ e; cases e) hy)
  · intro c' _ ha
    rw [hp] at ha
    obtain ⟨h1, h2, h3, h4, h5⟩ := ha
    refine ⟨h1, h2, h3, h4, rfl, Or.inl ⟨⟨n, ho⟩, ?_⟩⟩
    show i ∈ upd s.shared x (i :: s.shared x) x
    rw [upd_same]
    exact List.mem_cons_self

theorem exclusive_kept {j x y : Nat} (hx : s.exclusive x = none) (hj : s.exclusive y = some j) :
    upd s.exclusive x (some i) y = some j := by
  have hy : y ≠ x := by rintro rfl; rw [hx] at hj; cases hj
  rw [upd_other _ _ hy]
  exact hj

theorem exclusive_lock (h : Sim s d φ) {x : Nat} (hs : s.shared x = []) (y k : Nat)
    (hk : upd s.exclusive x (some i) y = some k) : s.shared y = [] := by
  by_cases hy : y = x
  · rw [hy, hs]
  · rw [upd_other _ _ hy] at hk
    exact h.lock y k hk

theorem Sim.lockToWrite (h : Sim s d φ) {x : Nat} {c : LabelCall L LayerName} {n : L}
    {old : LabelData LayerName} {layer : Option LayerName} (hc : s.calls i = some c)
    (hp : s.phase i = .waiting x) (ho : c.op = .set n old layer) (hx : s.exclusive x = none)
    (hs : s.shared x = []) : Sim ((s.lockExclusive i x).goto i (.reading x [])) d φ := by
  refine h.alone hc (q := .reading x []) rfl rfl rfl rfl rfl (fun j y _ hj => exclusive_kept hx hj)
    (fun _ _ _ hj => hj) (fun y k hk => exclusive_lock h hs y k hk) (fun _ _ _ _ _ => rfl) ?_ ?_
  · intro y hy
    exact h.data y (not_writing_before (i := i) (fun j hj => upd_other _ _ hj)
      (by rw [hp]; intro _ _ _ e; cases e) hy)
  · intro c' _ ha
    rw [hp] at ha
    obtain ⟨h1, h2, h3, h4, h5⟩ := ha
    exact ⟨h1, h2, h3, h4, rfl, Or.inr ⟨⟨n, old, layer, ho⟩, upd_same _ _ _⟩⟩

theorem Sim.lockMade (h : Sim s d φ) {x : Nat} {c : LabelCall L LayerName}
    (hc : s.calls i = some c) (hp : s.phase i = .made x) (hx : s.exclusive x = none)
    (hs : s.shared x = []) :
    Sim ((s.lockExclusive i x).goto i (.writing x 0 (labelFile .newEmpty) .created)) d φ := by
  refine h.alone hc (q := .writing x 0 (labelFile .newEmpty) .created) rfl rfl rfl rfl rfl
    (fun j y _ hj => exclusive_kept hx hj) (fun _ _ _ hj => hj)
    (fun y k hk => exclusive_lock h hs y k hk) (fun _ _ _ _ _ => rfl) ?_ ?_
  · intro y hy
    exact h.data y (not_writing_before (i := i) (fun j hj => upd_other _ _ hj)
      (by rw [hp]; intro _ _ _ e; cases e) hy)
  · intro c' _ ha
    rw [hp] at ha
    obtain ⟨h1, h2, h3, h4, ⟨n, h5⟩, h6, h7⟩ := ha
    have e : ((s.lockExclusive i x).goto i
        (.writing x 0 (labelFile .newEmpty) .created)).data x = [] := h6
    refine ⟨h1, h2, h4, upd_same _ _ _, by rw [e]; rfl, Or.inr ⟨n, h5, h3, h7, ?_, rfl⟩⟩
    rw [e]
    rfl

theorem Sim.readSome (h : Sim s d φ) {x k : Nat} {got : Bytes} {c : LabelCall L LayerName}
    (hc : s.calls i = some c) (hp : s.phase i = .reading x got) :
    Sim (s.goto i (.reading x (got ++ readAt (s.data x) got.length k))) d φ := by
  refine h.alone hc (q := .reading x (got ++ readAt (s.data x) got.length k)) rfl rfl rfl rfl rfl
    (fun _ _ _ hj => hj) (fun _ _ _ hj => hj) h.lock (fun _ _ _ _ _ => rfl) ?_ ?_
  · intro y hy
    exact h.data y (not_writing_before (i := i) (fun j hj => upd_other _ _ hj)
      (by rw [hp]; intro _ _ _ e; cases e) hy)
  · intro c' _ ha
    rw [hp] at ha
    obtain ⟨h1, h2, h3, h4, h5, h6⟩ := ha
    refine ⟨h1, h2, h3, h4, ?_, h6⟩
    show got ++ readAt (s.data x) got.length k =
      (s.data x).take (got ++ readAt (s.data x) got.length k).length
    have e : got ++ readAt (s.data x) got.length k = (s.data x).take (got.length + (k + 1)) := by
      rw [List.take_add, ← h5]
      rfl
    rw [e, List.length_take, List.take_eq_take_iff]
    omega

theorem Sim.same (h : Sim s d φ) {x : Nat} {got : Bytes} {c : LabelCall L LayerName} {n : L}
    {old : LabelData LayerName} {layer : Option LayerName} (hc : s.calls i = some c)
    (hp : s.phase i = .reading x got) (ho : c.op = .set n old layer)
    (hl : (s.data x).length ≤ got.length) (hr : readLabelFile got = .ok old) :
    Sim (s.goto i (.truncating x)) d φ := by
  refine h.alone hc (q := .truncating x) rfl rfl rfl rfl rfl
    (fun _ _ _ hj => hj) (fun _ _ _ hj => hj) h.lock (fun _ _ _ _ _ => rfl) ?_ ?_
  · intro y hy
    exact h.data y (not_writing_before (i := i) (fun j hj => upd_other _ _ hj)
      (by rw [hp]; intro _ _ _ e; cases e) hy)
  · intro c' _ ha
    rw [hp] at ha
    obtain ⟨h1, h2, h3, h4, h5, h6⟩ := ha
    have hg : got = s.data x := by rw [h5, List.take_of_length_le hl]
    rcases h6 with ⟨⟨m, h6⟩, _⟩ | ⟨_, h6⟩
    · rw [ho] at h6
      cases h6
    · exact ⟨h1, h2, h3, h4, h6, n, old, layer, ho, by rw [hg] at hr; exact hr⟩

theorem Sim.truncate (h : Sim s d φ) {x : Nat} {c : LabelCall L LayerName} {n : L}
    {old : LabelData LayerName} {layer : Option LayerName} (hc : s.calls i = some c)
    (hp : s.phase i = .truncating x) (ho : c.op = .set n old layer) :
    Sim ((s.putData x []).goto i (.writing x 0 (labelFile (old.withUpdatedLayer layer))
      (.set (some (old.withUpdatedLayer layer))))) d φ := by
  obtain ⟨c0, _, _, _, _, a5⟩ := h.call i c hc
  rw [hp] at a5
  obtain ⟨_, _, _, b4, b5, n', old', layer', b6, b7⟩ := a5
  rw [ho] at b6
  cases b6
  have hnw := h.not_writing (i := i) (x := x) (Or.inl b5) (by rw [hp]; intro _ _ _ e; cases e)
  refine h.alone hc (q := .writing x 0 (labelFile (old.withUpdatedLayer layer))
      (.set (some (old.withUpdatedLayer layer)))) rfl rfl rfl rfl rfl
    (fun _ _ _ hj => hj) (fun _ _ _ hj => hj) h.lock ?_ ?_ ?_
  · intro j y hj hy hu
    show upd s.data x [] y = s.data y
    by_cases hyx : y = x
    · subst hyx
      have hm := h.exclusive_uses b5 hj hu
      cases hcj : s.calls j with
      | none => rw [(h.fresh j hcj).2.1] at hm; cases hm
      | some cj =>
        obtain ⟨_, _, _, _, _, a5⟩ := h.call j cj hcj
        rw [hm] at a5
        rw [a5.2.2.2.2.2.1] at b7
        exact absurd b7 (readLabelFile_nil _)
    · exact upd_other _ _ hyx
  · intro y hy
    by_cases hyx : y = x
    · subst hyx
      exact absurd (upd_same _ _ _) (hy i 0 (labelFile (old.withUpdatedLayer layer))
        (.set (some (old.withUpdatedLayer layer))))
    · show d.data y = upd s.data x [] y
      rw [upd_other _ _ hyx]
      exact h.data y (not_writing_before (i := i) (fun j hj => upd_other _ _ hj)
        (by rw [hp]; intro _ _ _ e; cases e) hy)
  · intro c' _ ha
    rw [hp] at ha
    obtain ⟨h1, h2, h3, h4, h5, h6⟩ := ha
    have e : ((s.putData x []).goto i (.writing x 0 (labelFile (old.withUpdatedLayer layer))
      (.set (some (old.withUpdatedLayer layer))))).data x = [] := upd_same _ _ _
    refine ⟨h1, h2, h4, h5, by rw [e]; rfl, Or.inl ⟨n, old, layer, ho, h3, ?_, ?_, rfl⟩⟩
    · rw [h.data x hnw]
      exact b7
    · rw [e]
      rfl

/-- Nobody else uses a file that a call is writing. -/
theorem Sim.writing_uses (h : Sim s d φ) {x pos : Nat} {rest : Bytes} {r : LabelRes LayerName}
    (hp : s.phase i = .writing x pos rest r) {j : Nat} (hj : j ≠ i)
    (hu : (s.phase j).uses x) : False := by
  cases hc : s.calls i with
  | none => rw [(h.fresh i hc).2.1] at hp; cases hp
  | some c =>
    obtain ⟨c0, _, _, _, _, a5⟩ := h.call i c hc
    rw [hp] at a5
    obtain ⟨_, _, _, b4, _, b6⟩ := a5
    have hm := h.exclusive_uses b4 hj hu
    cases hcj : s.calls j with
    | none => rw [(h.fresh j hcj).2.1] at hm; cases hm
    | some cj =>
      obtain ⟨_, _, _, _, _, a5⟩ := h.call j cj hcj
      rw [hm] at a5
      rcases b6 with ⟨n, old, layer, _, _, b7, _⟩ | ⟨n, _, b7, _⟩
      · rw [a5.2.2.2.2.2.2] at b7
        exact absurd b7 (readLabelFile_nil _)
      · exact hj (h.owner j i x a5.2.2.1 b7)

theorem Sim.writeSome (h : Sim s d φ) {x pos k : Nat} {rest : Bytes} {r : LabelRes LayerName}
    {c : LabelCall L LayerName} (hc : s.calls i = some c) (hp : s.phase i = .writing x pos rest r) :
    Sim ((s.putData x (writeAt (s.data x) pos (rest.take (k + 1)))).goto i
      (.writing x (pos + (rest.take (k + 1)).length) (rest.drop (k + 1)) r)) d φ := by
  refine h.alone hc (q := .writing x (pos + (rest.take (k + 1)).length) (rest.drop (k + 1)) r)
    rfl rfl rfl rfl rfl (fun _ _ _ hj => hj) (fun _ _ _ hj => hj) h.lock ?_ ?_ ?_
  · intro j y hj hy hu
    show upd s.data x _ y = s.data y
    by_cases hyx : y = x
    · subst hyx
      exact (h.writing_uses hp hj hu).elim
    · exact upd_other _ _ hyx
  · intro y hy
    by_cases hyx : y = x
    · subst hyx
      exact absurd (upd_same _ _ _) (hy i (pos + (rest.take (k + 1)).length) (rest.drop (k + 1)) r)
    · show d.data y = upd s.data x _ y
      rw [upd_other _ _ hyx]
      exact h.data y (not_writing_before (i := i) (fun j hj => upd_other _ _ hj)
        (by rw [hp]; intro _ _ _ e; cases e; exact hyx rfl) hy)
  · intro c' _ ha
    rw [hp] at ha
    obtain ⟨h1, h2, h3, h4, h5, h6⟩ := ha
    have e : ((s.putData x (writeAt (s.data x) pos (rest.take (k + 1)))).goto i
      (.writing x (pos + (rest.take (k + 1)).length) (rest.drop (k + 1)) r)).data x =
        s.data x ++ rest.take (k + 1) := by
      show upd s.data x _ x = _
      rw [upd_same, h5, writeAt_end]
    have e' : s.data x ++ rest.take (k + 1) ++ rest.drop (k + 1) = s.data x ++ rest := by
      rw [List.append_assoc, List.take_append_drop]
    refine ⟨h1, h2, h3, h4, by rw [e, List.length_append, h5], ?_⟩
    rw [e, e']
    exact h6

theorem Sim.unlock (h : Sim s d φ) {x : Nat} {r : LabelRes LayerName} {c : LabelCall L LayerName}
    (hc : s.calls i = some c) (hp : s.phase i = .unlocking x r) :
    Sim ((s.unlock i x).goto i (.returning r)) d φ := by
  refine h.alone hc (q := .returning r) rfl rfl rfl rfl rfl ?_ ?_ ?_ (fun _ _ _ _ _ => rfl) ?_ ?_
  · intro j y hj hx
    show upd s.exclusive x _ y = some j
    by_cases hy : y = x
    · subst hy
      rw [upd_same, hx, if_neg]
      intro e
      exact hj (Option.some.inj e)
    · rw [upd_other _ _ hy, hx]
  · intro j y hj hx
    show j ∈ upd s.shared x _ y
    by_cases hy : y = x
    · subst hy
      rw [upd_same]
      exact List.mem_filter.2 ⟨hx, by simpa using hj⟩
    · rw [upd_other _ _ hy]
      exact hx
  · intro y k hk
    show upd s.shared x _ y = []
    have hk' : upd s.exclusive x (if s.exclusive x = some i then none else s.exclusive x) y = some k :=
      hk
    by_cases hy : y = x
    · subst hy
      rw [upd_same] at hk'
      split at hk'
      · cases hk'
      · rw [upd_same, h.lock y k hk']
        rfl
    · rw [upd_other _ _ hy] at hk'
      rw [upd_other _ _ hy]
      exact h.lock y k hk'
  · intro y hy
    exact h.data y (not_writing_before (i := i) (fun j hj => upd_other _ _ hj)
      (by rw [hp]; intro _ _ _ e; cases e) hy)
  · intro c' _ ha
    rw [hp] at ha
    exact ⟨ha.1, ha.2.1, ha.2.2.1⟩

theorem Sim.finish (h : Sim s d φ) {r : LabelRes LayerName} {c : LabelCall L LayerName}
    (hc : s.calls i = some c) (hp : s.phase i = .returning r) : Sim (s.answer i c r) d φ := by
  obtain ⟨c', a1, a2, a3, a4, a5⟩ := h.call i c hc
  rw [hp] at a5
  obtain ⟨_, b2, t, b3, b4⟩ := a5
  have hphase : ∀ j, j ≠ i → (s.answer i c r).phase j = s.phase j := fun j hj => upd_other _ _ hj
  obtain ⟨g1, g2⟩ := h.others (s' := s.answer i c r) (d' := d) (φ' := φ) i (Nat.le_refl _)
    (Nat.le_refl _) (fun _ _ => rfl) (fun j hj => ⟨putCall_other _ _ hj, rfl⟩)
    (fun j hj => ⟨hphase j hj, rfl⟩) (fun _ _ _ hx => hx) (fun _ _ _ hx => hx)
    (fun _ _ _ _ _ => ⟨rfl, rfl⟩)
    ⟨_, c', putCall_same _ _ _, a1, a2, a3, a4, by
      have : (s.answer i c r).phase i = .done := upd_same _ _ _
      rw [this]
      exact ⟨b2, r, s.now, t, rfl, b3, b4, Nat.le_of_lt (h.time.past t b4)⟩⟩
  exact
    { run := h.run
      dir := h.dir
      next := h.next
      time := h.time.one
      below := h.below
      owner := h.owner
      lock := h.lock
      data := fun y hy => h.data y (not_writing_before (i := i) hphase
        (by rw [hp]; intro _ _ _ e; cases e) hy)
      fresh := g1
      call := g2 }

/-! ### Steps that both systems make -/

/-- The bookkeeping of a step that both systems make, when only the phase of call `i` changes. -/
theorem Sim.bothGoto (h : Sim s d φ) {c : LabelCall L LayerName} {p q : Phase} {q' : Verif.Phase}
    (hc : s.calls i = some c) (hp : s.phase i = p)
    (hrun : (d.goto i q').Run) (hm : ∀ x, q' ≠ .made x)
    (hw : ∀ x pos rest r, p ≠ .writing x pos rest r)
    (hown : ∀ c', c'.op = c.op → At s d φ i c c' p →
      At (s.goto i q) (d.goto i q') (upd φ d.now s.now) i c c' q) :
    Sim (s.goto i q) (d.goto i q') (upd φ d.now s.now) := by
  obtain ⟨c', a1, a2, a3, a4, a5⟩ := h.call i c hc
  have hφ : upd φ d.now s.now c'.start = c.start := by
    rw [upd_other _ _ (Nat.ne_of_lt a4), a3]
  refine h.both (i := i) hrun h.dir h.next rfl rfl (Nat.le_refl _) h.below ?_
    (fun _ _ => ⟨rfl, rfl⟩) (fun j hj => ⟨upd_other _ _ hj, upd_other _ _ hj⟩) rfl rfl
    (fun _ _ _ _ _ => ⟨rfl, rfl⟩) ?_ ⟨c, c', hc, a1, a2, hφ, Nat.lt_succ_of_lt a4, ?_⟩
  · intro j k x hj hk
    have hj' : upd d.phase i q' j = .made x := hj
    have hk' : upd d.phase i q' k = .made x := hk
    by_cases e1 : j = i
    · rw [e1, upd_same] at hj'
      exact absurd hj' (hm x)
    · by_cases e2 : k = i
      · rw [e2, upd_same] at hk'
        exact absurd hk' (hm x)
      · rw [upd_other _ _ e1] at hj'
        rw [upd_other _ _ e2] at hk'
        exact h.owner j k x hj' hk'
  · intro y hy
    exact h.data y (not_writing_before (i := i) (fun j hj => upd_other _ _ hj)
      (by rw [hp]; exact hw y) hy)
  · have e : (s.goto i q).phase i = q := upd_same _ _ _
    rw [e]
    rw [hp] at a5
    exact hown c' a2 a5

/-- The bookkeeping of a step in which the simple system answers call `i`. -/
theorem Sim.bothAnswer (h : Sim s d φ) {s' : LockedLabels L} {c c1 : LabelCall L LayerName}
    {c' : LabelCall L LayerName} {b : Nat → Bytes} {f : L → Option Nat} {r : LabelRes LayerName}
    (hc : s.calls i = some c) (hc' : d.calls i = some c')
    (hrun : ({ d with data := b, dir := f }.answer i c' r).Run)
    (e1 : s'.dir = f) (e2 : s'.next = s.next) (e3 : s'.now = s.now + 1)
    (e4 : s'.calls = putCall s.calls i c1) (e5 : c1.op = c.op) (e6 : c1.start = c.start)
    (hex : s'.exclusive = s.exclusive) (hsh : s'.shared = s.shared) (hdat : s'.data = s.data)
    (hphase : ∀ j, j ≠ i → s'.phase j = s.phase j)
    (hbelow : ∀ n x, f n = some x → x < s.next)
    (hdata : ∀ j x, j ≠ i → x < s.next → (s.phase j).uses x → b x = d.data x)
    (hd : ∀ x, (∀ k pos rest r, s'.phase k ≠ .writing x pos rest r) → b x = s.data x)
    (hown : At s d φ i c c' (s.phase i) → ∀ d' : DirLabels L, d'.phase i = .done →
      d'.now = d.now + 1 →
      At s' d' (upd φ d.now s.now) i c1 { c' with answer := some (r, d.now) } (s'.phase i)) :
    ∃ d' φ', Sim s' d' φ' := by
  obtain ⟨c'', a1, a2, a3, a4, a5⟩ := h.call i c hc
  rw [hc'] at a1
  cases a1
  have hφ : upd φ d.now s.now c'.start = c.start := by
    rw [upd_other _ _ (Nat.ne_of_lt a4), a3]
  refine ⟨{ d with data := b, dir := f }.answer i c' r, upd φ d.now s.now,
    h.both (i := i) hrun e1.symm (h.next.trans e2.symm) e3 rfl (Nat.le_of_eq e2.symm) ?_ ?_
    (fun j hj => ⟨by rw [e4, putCall_other _ _ hj], putCall_other _ _ hj⟩)
    (fun j hj => ⟨hphase j hj, upd_other _ _ hj⟩) hex hsh
    (fun j x hj hx hu => ⟨by rw [hdat], hdata j x hj hx hu⟩) ?_
    ⟨c1, _, by rw [e4, putCall_same], putCall_same _ _ _, by rw [e5]; exact a2,
      by rw [e6]; exact hφ, Nat.lt_succ_of_lt a4,
      hown a5 _ (upd_same _ _ _) rfl⟩⟩
  · rw [e1, e2]
    exact hbelow
  · intro j k x hj hk
    have hj' : upd d.phase i .done j = .made x := hj
    have hk' : upd d.phase i .done k = .made x := hk
    by_cases g1 : j = i
    · rw [g1, upd_same] at hj'
      cases hj'
    · by_cases g2 : k = i
      · rw [g2, upd_same] at hk'
        cases hk'
      · rw [upd_other _ _ g1] at hj'
        rw [upd_other _ _ g2] at hk'
        exact h.owner j k x hj' hk'
  · rw [hdat]
    exact hd

theorem Sim.openFile (h : Sim s d φ) {x : Nat} {c : LabelCall L LayerName}
    (hc : s.calls i = some c) (hp : s.phase i = .begun)
    (ho : (∃ n, c.op = .get n) ∨ ∃ n old layer, c.op = .set n old layer)
    (hx : s.dir c.op.name = some x) : ∃ d' φ', Sim (s.goto i (.waiting x)) d' φ' := by
  obtain ⟨c', a1, a2, a3, a4, a5⟩ := h.call i c hc
  rw [hp] at a5
  refine ⟨_, _, h.bothGoto (q := .waiting x) (q' := .opened x) hc hp
    (h.run.step (.openFile a1 a5.2.2 (by rw [a2]; exact ho) (by rw [a2, h.dir]; exact hx)))
    (fun _ e => by cases e) (fun _ _ _ _ e => by cases e) ?_⟩
  intro c'' _ ha
  exact ⟨ha.1, ha.2.1, upd_same _ _ _, h.below _ _ hx, ho⟩

theorem Sim.check (h : Sim s d φ) {c : LabelCall L LayerName} {n : L}
    (hc : s.calls i = some c) (hp : s.phase i = .begun) (ho : c.op = .create n)
    (hx : s.dir n = none) : ∃ d' φ', Sim (s.goto i .checked) d' φ' := by
  obtain ⟨c', a1, a2, a3, a4, a5⟩ := h.call i c hc
  rw [hp] at a5
  refine ⟨_, _, h.bothGoto (q := .checked) (q' := .checked) hc hp
    (h.run.step (.check a1 a5.2.2 (a2.trans ho) (by rw [h.dir]; exact hx)))
    (fun _ e => by cases e) (fun _ _ _ _ e => by cases e) ?_⟩
  intro c'' _ ha
  exact ⟨ha.1, ha.2.1, upd_same _ _ _, n, ho⟩

/-- Both systems answer call `i` in the same step. -/
theorem Sim.answered (h : Sim s d φ) {c c' : LabelCall L LayerName} {f : L → Option Nat}
    {r : LabelRes LayerName} (hc : s.calls i = some c) (hc' : d.calls i = some c')
    (hw : ∀ x pos rest r, s.phase i ≠ .writing x pos rest r)
    (hf : ∀ n x, f n = some x → x < s.next)
    (hrun : ({ d with data := d.data, dir := f }.answer i c' r).Run) :
    ∃ d' φ', Sim ({ s with dir := f }.answer i c r) d' φ' := by
  refine h.bothAnswer (s' := { s with dir := f }.answer i c r)
    (c1 := { c with answer := some (r, s.now) }) hc hc' hrun rfl rfl rfl rfl rfl rfl rfl rfl rfl
    (fun j hj => upd_other _ _ hj) hf (fun _ _ _ _ _ => rfl) ?_ ?_
  · intro y hy
    exact h.data y (not_writing_before (i := i) (fun j hj => upd_other _ _ hj) (hw y) hy)
  · intro _ d' h1 h2
    have e : ({ s with dir := f }.answer i c r).phase i = .done := upd_same _ _ _
    rw [e]
    exact ⟨h1, r, s.now, d.now, rfl, rfl, by omega, by rw [upd_same]; exact Nat.le_refl _⟩

theorem Sim.getMissing (h : Sim s d φ) {c : LabelCall L LayerName} {n : L}
    (hc : s.calls i = some c) (hp : s.phase i = .begun) (ho : c.op = .get n)
    (hx : s.dir n = none) : ∃ d' φ', Sim (s.answer i c (.got none)) d' φ' := by
  obtain ⟨c', a1, a2, a3, a4, a5⟩ := h.call i c hc
  rw [hp] at a5
  have := h.run.step (.getMissing a1 a5.2.2 (a2.trans ho) (by rw [h.dir]; exact hx))
  exact h.answered hc a1 (by rw [hp]; intro _ _ _ _ e; cases e) h.below
    (by rw [← h.dir]; exact this)

theorem Sim.setMissing (h : Sim s d φ) {c : LabelCall L LayerName} {n : L}
    {old : LabelData LayerName} {layer : Option LayerName}
    (hc : s.calls i = some c) (hp : s.phase i = .begun) (ho : c.op = .set n old layer)
    (hx : s.dir n = none) : ∃ d' φ', Sim (s.answer i c .missing) d' φ' := by
  obtain ⟨c', a1, a2, a3, a4, a5⟩ := h.call i c hc
  rw [hp] at a5
  have := h.run.step (.setMissing a1 a5.2.2 (a2.trans ho) (by rw [h.dir]; exact hx))
  exact h.answered hc a1 (by rw [hp]; intro _ _ _ _ e; cases e) h.below
    (by rw [← h.dir]; exact this)

theorem Sim.createExists (h : Sim s d φ) {x : Nat} {c : LabelCall L LayerName} {n : L}
    (hc : s.calls i = some c) (hp : s.phase i = .begun ∨ s.phase i = .checked)
    (ho : c.op = .create n) (hx : s.dir n = some x) : ∃ d' φ', Sim (s.answer i c .exists) d' φ' := by
  obtain ⟨c', a1, a2, a3, a4, a5⟩ := h.call i c hc
  have hp' : d.phase i = .begun ∨ d.phase i = .checked := by
    rcases hp with hp | hp
    · rw [hp] at a5
      exact Or.inl a5.2.2
    · rw [hp] at a5
      exact Or.inr a5.2.2.1
  have := h.run.step (.createExists (inode := x) a1 hp' (a2.trans ho) (by rw [h.dir]; exact hx))
  exact h.answered hc a1 (by rcases hp with hp | hp <;> (rw [hp]; intro _ _ _ _ e; cases e)) h.below
    (by rw [← h.dir]; exact this)

theorem Sim.unlink (h : Sim s d φ) {c : LabelCall L LayerName} {n : L}
    (hc : s.calls i = some c) (hp : s.phase i = .begun) (ho : c.op = .delete n) :
    ∃ d' φ', Sim ({ s with dir := upd s.dir n none }.answer i c (.deleted (s.dir n).isSome)) d' φ' := by
  obtain ⟨c', a1, a2, a3, a4, a5⟩ := h.call i c hc
  rw [hp] at a5
  have := h.run.step (.unlink a1 a5.2.2 (a2.trans ho))
  rw [h.dir] at this
  refine h.answered (f := upd s.dir n none) hc a1 (by rw [hp]; intro _ _ _ _ e; cases e) ?_ this
  intro m x hm
  by_cases e : m = n
  · rw [e, upd_same] at hm
    cases hm
  · rw [upd_other _ _ e] at hm
    exact h.below m x hm

/-- The simple system answers call `i`, which still has the lock of file `x`. -/
theorem Sim.decided (h : Sim s d φ) {c c' : LabelCall L LayerName} {x : Nat} {b : Nat → Bytes}
    {r : LabelRes LayerName} (hc : s.calls i = some c) (hc' : d.calls i = some c')
    (hx : x < s.next) (hans : c.answer = none) (hl : i ∈ s.shared x ∨ s.exclusive x = some i)
    (hrun : ({ d with data := b }.answer i c' r).Run)
    (hb : ∀ y, y ≠ x → b y = d.data y)
    (hbx : b x = s.data x)
    (hw : ∀ y pos rest r, y ≠ x → s.phase i ≠ .writing y pos rest r)
    (hdata : ∀ j, j ≠ i → (s.phase j).uses x → b x = d.data x) :
    ∃ d' φ', Sim (s.goto i (.unlocking x r)) d' φ' := by
  have hcs : s.calls = putCall s.calls i c := by
    funext j
    by_cases e : j = i
    · rw [e, putCall_same, hc]
    · rw [putCall_other _ _ e]
  refine h.bothAnswer (s' := s.goto i (.unlocking x r)) (c1 := c) (f := s.dir) (b := b) hc hc'
    (by rw [← h.dir]; exact hrun) rfl rfl rfl hcs rfl rfl rfl rfl rfl
    (fun j hj => upd_other _ _ hj) h.below ?_ ?_ ?_
  · intro j y hj _ hu
    by_cases e : y = x
    · subst e
      exact hdata j hj hu
    · exact hb y e
  · intro y hy
    by_cases e : y = x
    · rw [e]
      exact hbx
    · rw [hb y e]
      exact h.data y (not_writing_before (i := i) (fun j hj => upd_other _ _ hj)
        (fun pos rest r => hw y pos rest r e) hy)
  · intro _ d' h1 h2
    have e : (s.goto i (.unlocking x r)).phase i = .unlocking x r := upd_same _ _ _
    rw [e]
    exact ⟨hans, h1, ⟨d.now, rfl, by omega⟩, hx, hl⟩

theorem Sim.readEnd (h : Sim s d φ) {x : Nat} {got : Bytes} {c : LabelCall L LayerName} {n : L}
    (hc : s.calls i = some c) (hp : s.phase i = .reading x got) (ho : c.op = .get n)
    (hl : (s.data x).length ≤ got.length) :
    ∃ d' φ', Sim (s.goto i (.unlocking x (readResult got))) d' φ' := by
  obtain ⟨c', a1, a2, a3, a4, a5⟩ := h.call i c hc
  rw [hp] at a5
  obtain ⟨h1, h2, h3, h4, h5, h6⟩ := a5
  have hg : got = s.data x := by rw [h5, List.take_of_length_le hl]
  have hi : ∀ y pos rest r, s.phase i ≠ .writing y pos rest r := by
    rw [hp]
    intro _ _ _ _ e
    cases e
  have hs : i ∈ s.shared x ∨ s.exclusive x = some i := h6.imp (·.2) (·.2)
  have hd := h.data x (h.not_writing hs.symm (hi x))
  have := h.run.step (.read a1 h3 (a2.trans ho))
  rw [hd, ← hg] at this
  exact h.decided (b := d.data) hc a1 h4 h1 hs this (fun _ _ => rfl) hd
    (fun y pos rest r _ => hi y pos rest r) (fun _ _ _ => rfl)

theorem upd_eta {α β : Type} [DecidableEq α] (f : α → β) (a : α) : upd f a (f a) = f := by
  funext x
  by_cases h : x = a
  · rw [h, upd_same]
  · rw [upd_other _ _ h]

/-- `set_label_option` does not write. -/
theorem Sim.refused (h : Sim s d φ) {x : Nat} {got : Bytes} {c : LabelCall L LayerName} {n : L}
    {old : LabelData LayerName} {layer : Option LayerName} {r : LabelRes LayerName}
    (hc : s.calls i = some c) (hp : s.phase i = .reading x got) (ho : c.op = .set n old layer)
    (hl : (s.data x).length ≤ got.length) (hr : setResult got old layer = (r, got)) :
    ∃ d' φ', Sim (s.goto i (.unlocking x r)) d' φ' := by
  obtain ⟨c', a1, a2, a3, a4, a5⟩ := h.call i c hc
  rw [hp] at a5
  obtain ⟨h1, h2, h3, h4, h5, h6⟩ := a5
  have hg : got = s.data x := by rw [h5, List.take_of_length_le hl]
  have hi : ∀ y pos rest r, s.phase i ≠ .writing y pos rest r := by
    rw [hp]
    intro _ _ _ _ e
    cases e
  have hs : i ∈ s.shared x ∨ s.exclusive x = some i := h6.imp (·.2) (·.2)
  have hd := h.data x (h.not_writing hs.symm (hi x))
  have := h.run.step (.write a1 h3 (a2.trans ho))
  rw [hd, ← hg, hr, hg, ← hd, upd_eta] at this
  exact h.decided (b := d.data) hc a1 h4 h1 hs this (fun _ _ => rfl) hd
    (fun y pos rest r _ => hi y pos rest r) (fun _ _ _ => rfl)

theorem Sim.writeEnd (h : Sim s d φ) {x pos : Nat} {r : LabelRes LayerName}
    {c : LabelCall L LayerName} (hc : s.calls i = some c) (hp : s.phase i = .writing x pos [] r) :
    ∃ d' φ', Sim (s.goto i (.unlocking x r)) d' φ' := by
  obtain ⟨c', a1, a2, a3, a4, a5⟩ := h.call i c hc
  rw [hp] at a5
  obtain ⟨h1, h2, h3, h4, h5, h6⟩ := a5
  have hw : ∀ y pos rest r, y ≠ x → s.phase i ≠ .writing y pos rest r := by
    rw [hp]
    intro _ _ _ _ hy e
    cases e
    exact hy rfl
  have hu : ∀ j, j ≠ i → (s.phase j).uses x → s.data x = d.data x := fun j hj hu =>
    (h.writing_uses hp hj hu).elim
  rw [List.append_nil] at h6
  have hb : ∀ y, y ≠ x → upd d.data x (s.data x) y = d.data y := fun y hy => upd_other _ _ hy
  rcases h6 with ⟨n, old, layer, k1, k2, k3, k4, rfl⟩ | ⟨n, k1, k2, k3, k4, rfl⟩
  · have := h.run.step (.write a1 k2 (a2.trans k1))
    have e : setResult (d.data x) old layer = (.set (some (old.withUpdatedLayer layer)), s.data x) := by
      unfold setResult
      rw [k3, k4]
      simp only [if_true]
    rw [e] at this
    exact h.decided (b := upd d.data x (s.data x)) hc a1 h3 h1 (Or.inr h4) this hb (upd_same _ _ _)
      hw (fun j hj hu' => by rw [upd_same]; exact hu j hj hu')
  · have := h.run.step (.fill a1 k2 (a2.trans k1))
    rw [← k4] at this
    exact h.decided (b := upd d.data x (s.data x)) hc a1 h3 h1 (Or.inr h4) this hb (upd_same _ _ _)
      hw (fun j hj hu' => by rw [upd_same]; exact hu j hj hu')

theorem Sim.make (h : Sim s d φ) {c : LabelCall L LayerName} {n : L}
    (hc : s.calls i = some c) (hp : s.phase i = .checked) (ho : c.op = .create n)
    (hx : s.dir n = none) :
    ∃ d' φ', Sim ({ s with dir := upd s.dir n (some s.next)
                           data := upd s.data s.next []
                           next := s.next + 1 }.goto i (.made s.next)) d' φ' := by
  obtain ⟨c', a1, a2, a3, a4, a5⟩ := h.call i c hc
  rw [hp] at a5
  have hrun := h.run.step (.make a1 a5.2.2.1 (a2.trans ho) (by rw [h.dir]; exact hx))
  refine ⟨_, _, h.both (i := i) hrun (by rw [h.dir, h.next]; rfl) (by rw [h.next]; rfl) rfl rfl
    (Nat.le_succ _) ?_ ?_ (fun _ _ => ⟨rfl, rfl⟩)
    (fun j hj => ⟨upd_other _ _ hj, upd_other _ _ hj⟩) rfl rfl ?_ ?_
    ⟨c, c', hc, a1, a2, by rw [upd_other _ _ (Nat.ne_of_lt a4), a3], Nat.lt_succ_of_lt a4, ?_⟩⟩
  · intro m x hm
    show x < s.next + 1
    have hm' : upd s.dir n (some s.next) m = some x := hm
    by_cases e : m = n
    · rw [e, upd_same] at hm'
      cases hm'
      exact Nat.lt_succ_self _
    · rw [upd_other _ _ e] at hm'
      exact Nat.lt_succ_of_lt (h.below m x hm')
  · intro j k x hj hk
    have hj' : upd d.phase i (.made d.next) j = .made x := hj
    have hk' : upd d.phase i (.made d.next) k = .made x := hk
    by_cases e1 : j = i
    · by_cases e2 : k = i
      · rw [e1, e2]
      · rw [e1, upd_same, h.next] at hj'
        rw [upd_other _ _ e2] at hk'
        cases hj'
        exact absurd (h.made_lt hk') (Nat.lt_irrefl _)
    · by_cases e2 : k = i
      · rw [e2, upd_same, h.next] at hk'
        rw [upd_other _ _ e1] at hj'
        cases hk'
        exact absurd (h.made_lt hj') (Nat.lt_irrefl _)
      · rw [upd_other _ _ e1] at hj'
        rw [upd_other _ _ e2] at hk'
        exact h.owner j k x hj' hk'
  · intro j x _ hx' _
    have e1 : x ≠ s.next := Nat.ne_of_lt hx'
    exact ⟨upd_other _ _ e1, upd_other _ _ (by rw [h.next]; exact e1)⟩
  · intro y hy
    show upd d.data d.next [] y = upd s.data s.next [] y
    rw [h.next]
    by_cases e : y = s.next
    · rw [e, upd_same, upd_same]
    · rw [upd_other _ _ e, upd_other _ _ e]
      exact h.data y (not_writing_before (i := i) (fun j hj => upd_other _ _ hj)
        (by rw [hp]; intro _ _ _ e; cases e) hy)
  · have e : ({ s with dir := upd s.dir n (some s.next)
                       data := upd s.data s.next []
                       next := s.next + 1 }.goto i (.made s.next)).phase i = .made s.next :=
      upd_same _ _ _
    rw [e]
    refine ⟨a5.1, a5.2.1, ?_, Nat.lt_succ_self _, ⟨n, ho⟩, upd_same _ _ _, ?_⟩
    · show upd d.phase i (.made d.next) i = _
      rw [upd_same, h.next]
    · show upd d.data d.next [] s.next = []
      rw [h.next, upd_same]

theorem Sim.start (h : Sim s d φ) {op : LabelOp L LayerName} (hi : s.calls i = none)
    (hv : ∀ n old layer, op = .set n old layer → old.version + 1 < 2 ^ 64) :
    ∃ d' φ', Sim { s with calls := putCall s.calls i ⟨op, s.now, none⟩
                          phase := upd s.phase i .begun
                          now := s.now + 1 } d' φ' := by
  obtain ⟨f1, f2, f3⟩ := h.fresh i hi
  have hrun := h.run.step (.start f1 hv)
  have hother : ∀ j, j ≠ i → upd s.phase i .begun j = s.phase j := fun j hj => upd_other _ _ hj
  refine ⟨_, _, h.both (i := i) hrun h.dir h.next rfl rfl (Nat.le_refl _) h.below ?_
    (fun j hj => ⟨putCall_other _ _ hj, putCall_other _ _ hj⟩)
    (fun j hj => ⟨hother j hj, upd_other _ _ hj⟩) rfl rfl
    (fun _ _ _ _ _ => ⟨rfl, rfl⟩) ?_
    ⟨_, _, putCall_same _ _ _, putCall_same _ _ _, rfl, upd_same _ _ _, Nat.lt_succ_self _, ?_⟩⟩
  · intro j k x hj hk
    have hj' : upd d.phase i .begun j = .made x := hj
    have hk' : upd d.phase i .begun k = .made x := hk
    by_cases e1 : j = i
    · rw [e1, upd_same] at hj'
      cases hj'
    · by_cases e2 : k = i
      · rw [e2, upd_same] at hk'
        cases hk'
      · rw [upd_other _ _ e1] at hj'
        rw [upd_other _ _ e2] at hk'
        exact h.owner j k x hj' hk'
  · intro y hy
    exact h.data y (not_writing_before (i := i) hother
      (by rw [f2]; intro _ _ _ e; cases e) hy)
  · show At _ _ _ _ _ _ (upd s.phase i .begun i)
    rw [upd_same]
    exact ⟨rfl, rfl, upd_same _ _ _⟩

/-! ### Calls that are dropped -/

theorem Sim.drop (h : Sim s d φ) {c : LabelCall L LayerName} (hc : s.calls i = some c)
    (ha : c.answer = none) (hp : dropsWhole (s.phase i) = true) : Sim (s.drop i) d φ := by
  have hw : ∀ y pos rest r, s.phase i ≠ .writing y pos rest r := by
    intro y pos rest r e
    rw [e] at hp
    cases hp
  refine h.alone hc (q := .dropped) rfl rfl rfl rfl rfl ?_ ?_ ?_ (fun _ _ _ _ _ => rfl) ?_ ?_
  · intro j y hj hx
    show (if s.exclusive y = some i then none else s.exclusive y) = some j
    rw [hx, if_neg]
    intro e
    exact hj (Option.some.inj e)
  · intro j y hj hx
    exact List.mem_filter.2 ⟨hx, by simpa using hj⟩
  · intro y k hk
    have hk' : (if s.exclusive y = some i then none else s.exclusive y) = some k := hk
    show (s.shared y).filter _ = []
    split at hk'
    · cases hk'
    · rw [h.lock y k hk']
      rfl
  · intro y hy
    exact h.data y (not_writing_before (i := i) (fun j hj => upd_other _ _ hj) (hw y) hy)
  · intro c' _ hat
    refine ⟨ha, fun x hx => ?_⟩
    cases hs : s.phase i with
    | begun => rw [hs] at hat; rw [hat.2.2] at hx; cases hx
    | checked => rw [hs] at hat; rw [hat.2.2.1] at hx; cases hx
    | waiting y => rw [hs] at hat; rw [hat.2.2.1] at hx; cases hx
    | made y => rw [hs] at hp; cases hp
    | reading y g => rw [hs] at hat; rw [hat.2.2.1] at hx; cases hx
    | truncating y => rw [hs] at hat; rw [hat.2.2.1] at hx; cases hx
    | writing y pos rest r => exact hw y pos rest r hs
    | unlocking y r => rw [hs] at hat; rw [hat.2.1] at hx; cases hx
    | returning r => rw [hs] at hat; rw [hat.2.1] at hx; cases hx
    | done => rw [hs] at hat; rw [hat.1] at hx; cases hx
    | dropped => rw [hs] at hat; exact hat.2 x hx

theorem Sim.dropDelete (h : Sim s d φ) {c : LabelCall L LayerName} {n : L}
    (hc : s.calls i = some c) (hp : s.phase i = .begun) (ho : c.op = .delete n) :
    ∃ d' φ', Sim ({ s with dir := upd s.dir n none }.goto i .dropped) d' φ' := by
  have hans : c.answer = none := by
    obtain ⟨_, _, _, _, _, a5⟩ := h.call i c hc
    rw [hp] at a5
    exact a5.1
  obtain ⟨d', φ', h'⟩ := h.unlink hc hp ho
  obtain ⟨c', a1, a2, a3, a4, a5⟩ := h'.call i _ (putCall_same _ _ _)
  have e : ({ s with dir := upd s.dir n none }.answer i c (.deleted (s.dir n).isSome)).phase i =
    .done := upd_same _ _ _
  rw [e] at a5
  obtain ⟨g1, g2⟩ := h'.others (s' := { s with dir := upd s.dir n none }.goto i .dropped) (d' := d')
    (φ' := φ') i (Nat.le_refl _) (Nat.le_refl _) (fun _ _ => rfl)
    (fun j hj => ⟨(putCall_other _ _ hj).symm, rfl⟩)
    (fun j hj => ⟨(upd_other _ _ hj).trans (upd_other _ _ hj).symm, rfl⟩)
    (fun _ _ _ hx => hx) (fun _ _ _ hx => hx) (fun _ _ _ _ _ => ⟨rfl, rfl⟩)
    ⟨c, c', hc, a1, a2, a3, a4, by
      have e : ({ s with dir := upd s.dir n none }.goto i .dropped).phase i = .dropped :=
        upd_same _ _ _
      rw [e]
      exact ⟨hans, fun x hx => by rw [a5.1] at hx; cases hx⟩⟩
  exact ⟨d', φ',
    { run := h'.run
      dir := h'.dir
      next := h'.next
      time := h'.time
      below := h'.below
      owner := h'.owner
      lock := h'.lock
      data := by
        intro x hx
        refine h'.data x (not_writing_before (i := i)
          (fun j hj => (upd_other _ _ hj).trans (upd_other _ _ hj).symm) ?_ hx)
        rw [e]
        intro _ _ _ e
        cases e
      fresh := g1
      call := g2 }⟩

/-! ### All steps -/

theorem Sim.started (h : Sim s d φ) (hp : s.phase i ≠ .begun) : ∃ c, s.calls i = some c := by
  cases hc : s.calls i with
  | none => exact absurd (h.fresh i hc).2.1 hp
  | some c => exact ⟨c, rfl⟩

theorem Sim.go (h : Sim s d φ) {s' : LockedLabels L} (hg : Go true i s s') :
    ∃ d' φ', Sim s' d' φ' := by
  cases hg with
  | openFile h1 h2 h3 h4 => exact h.openFile h1 h2 h3 h4
  | getMissing h1 h2 h3 h4 => exact h.getMissing h1 h2 h3 h4
  | setMissing h1 h2 h3 h4 => exact h.setMissing h1 h2 h3 h4
  | lockToRead _ h1 h2 h3 h4 => exact ⟨_, _, h.lockToRead h1 h2 h3 h4⟩
  | doNotLock h0 => cases h0
  | lockToWrite h1 h2 h3 h4 h5 => exact ⟨_, _, h.lockToWrite h1 h2 h3 h4 h5⟩
  | readSome h1 _ =>
    obtain ⟨c, hc⟩ := h.started (i := i) (by rw [h1]; intro e; cases e)
    exact ⟨_, _, h.readSome hc h1⟩
  | readEnd h1 h2 h3 h4 => exact h.readEnd h1 h2 h3 h4
  | same h1 h2 h3 h4 h5 => exact ⟨_, _, h.same h1 h2 h3 h4 h5⟩
  | different h1 h2 h3 h4 h5 h6 =>
    exact h.refused h1 h2 h3 h4 (by simp only [setResult, h5, if_neg h6])
  | broken h1 h2 h3 h4 h5 =>
    refine h.refused h1 h2 h3 h4 ?_
    unfold setResult
    split
    · rename_i l hl
      exact absurd hl (h5 l)
    · rfl
  | truncate h1 h2 h3 => exact ⟨_, _, h.truncate h1 h2 h3⟩
  | writeSome h1 _ =>
    obtain ⟨c, hc⟩ := h.started (i := i) (by rw [h1]; intro e; cases e)
    exact ⟨_, _, h.writeSome hc h1⟩
  | writeEnd h1 =>
    obtain ⟨c, hc⟩ := h.started (i := i) (by rw [h1]; intro e; cases e)
    exact h.writeEnd hc h1
  | unlock h1 =>
    obtain ⟨c, hc⟩ := h.started (i := i) (by rw [h1]; intro e; cases e)
    exact ⟨_, _, h.unlock hc h1⟩
  | finish h1 h2 => exact ⟨_, _, h.finish h1 h2⟩
  | check h1 h2 h3 h4 => exact h.check h1 h2 h3 h4
  | createExists h1 h2 h3 h4 => exact h.createExists h1 h2 h3 h4
  | make h1 h2 h3 h4 => exact h.make h1 h2 h3 h4
  | lockMade h1 h2 h3 =>
    obtain ⟨c, hc⟩ := h.started (i := i) (by rw [h1]; intro e; cases e)
    exact ⟨_, _, h.lockMade hc h1 h2 h3⟩
  | unlink h1 h2 h3 => exact h.unlink h1 h2 h3

/-- Every state of the detailed system is like one of the simple system. -/
theorem Run.sim {drops : Phase → Bool} (hd : ∀ p, drops p = true → dropsWhole p = true)
    (h : Run true drops s) : ∃ d φ, Sim s d φ := by
  induction h with
  | start => exact ⟨_, _, Sim.init⟩
  | step _ hs ih =>
    obtain ⟨d, φ, hi⟩ := ih
    cases hs with
    | start h1 h2 => exact hi.start h1 h2
    | go hg => exact hi.go hg
    | drop h1 h2 h3 => exact ⟨_, _, hi.drop h1 h2 (hd _ h3)⟩
    | dropDelete h1 h2 h3 => exact hi.dropDelete h1 h2 h3

end LockedLabels

end Verif
