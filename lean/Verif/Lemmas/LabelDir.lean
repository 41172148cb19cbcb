import Verif.Lemmas.LabelAtomic

/-!
The directory store of labels: each execution is a list of events. A call that works on a file
whose name is gone is put before the deletion.
-/

namespace Verif

open Spec

set_option linter.unusedSectionVars false

variable {L : Type} [DecidableEq L]

namespace DirLabels

theorem upd_same {α β : Type} [DecidableEq α] (f : α → β) (a : α) (b : β) : upd f a b a = b := by
  simp [upd]

theorem upd_other {α β : Type} [DecidableEq α] (f : α → β) {a x : α} (b : β) (h : x ≠ a) :
    upd f a b x = f x := by
  simp [upd, h]

/-- The file of an inode: which label it belongs to and what it says; the call that deleted
it. -/
structure Ghost (L : Type) where
  owner : Nat → L
  label : Nat → LabelData LayerName
  killer : Nat → Nat

/-- What is stored after events, from the start. -/
local notation "after" => Spec.labelsAfter sameLabel

/-- An inode without a name: the event that deleted it, with the state before. -/
def Dead (s : DirLabels L) (g : Ghost L) (G : List (LabelEvent L LayerName)) (i : Nat) : Prop :=
  ∃ A d B, G = A ++ d :: B ∧ d.op = .delete (g.owner i) ∧ d.id = g.killer i ∧
    after A (g.owner i) = some (g.label i) ∧
    ∀ k c, s.calls k = some c → s.phase k = .opened i → c.start ≤ d.time

/-- What holds in all executions. `x` is a call that is just returning. -/
structure Inv (s : DirLabels L) (g : Ghost L) (G : List (LabelEvent L LayerName))
    (x : Option Nat) : Prop where
  lin : LinearizedBy sameLabel s.calls G
  past : ∀ e ∈ G, e.time ≤ s.now
  begun : ∀ i c, s.calls i = some c → c.start ≤ s.now
  inode : ∀ n i, s.dir n = some i → i < s.next ∧ g.owner i = n ∧ after G n = some (g.label i)
  gone : ∀ n, s.dir n = none → after G n = none
  dead : ∀ i, i < s.next → s.dir (g.owner i) ≠ some i → Dead s g G i
  killers : ∀ i j, i < s.next → j < s.next → s.dir (g.owner i) ≠ some i →
    s.dir (g.owner j) ≠ some j → g.killer i = g.killer j → i = j
  data : ∀ i, i < s.next → s.data i = labelFile (g.label i) ∨ s.data i = []
  version : ∀ i, i < s.next → (g.label i).version < 2 ^ 64
  setVersion : ∀ k c n old layer, s.calls k = some c → c.op = .set n old layer →
    old.version + 1 < 2 ^ 64
  opened : ∀ k c i, s.calls k = some c → s.phase k = .opened i → i < s.next ∧
    g.owner i = c.op.name
  fresh : ∀ k c, some k ≠ x → s.calls k = some c → (∀ i, s.phase k ≠ .made i) →
    s.phase k ≠ .done → ∀ e ∈ G, e.id ≠ k
  unanswered : ∀ k c, s.calls k = some c → s.phase k ≠ .done → c.answer = none
  made : ∀ k c i, some k ≠ x → s.calls k = some c → s.phase k = .made i → i < s.next ∧
    s.data i = [] ∧ g.label i = .newEmpty ∧ c.op = .create (g.owner i) ∧
    ∃ e ∈ G, e.id = k ∧ e.res = .created
  maker : ∀ k k' c c' i, s.calls k = some c → s.calls k' = some c' → s.phase k = .made i →
    s.phase k' = .made i → k = k'
  empty : ∀ i, i < s.next → s.data i = [] → ∃ k c, some k ≠ x ∧ s.calls k = some c ∧
    s.phase k = .made i
  ended : ∀ k c r t, s.calls k = some c → c.answer = some (r, t) → t < s.now
  unread : ∀ k c t, s.calls k = some c → c.answer = some (.unreadable, t) →
    ∃ k' c', s.calls k' = some c' ∧ c'.op = .create c.op.name ∧ c'.start ≤ t ∧
      ∀ r t', c'.answer = some (r, t') → t < t'

variable {s : DirLabels L} {g : Ghost L} {G : List (LabelEvent L LayerName)} {x : Option Nat}

theorem readLabelFile_empty : readLabelFile [] = .err := by decide

theorem Inv.init [Inhabited L] :
    Inv ({} : DirLabels L) ⟨fun _ => default, fun _ => .newEmpty, fun _ => 0⟩ [] none := by
  refine ⟨LinearizedBy.empty _, ?_, ?_, ?_, ?_, ?_, ?_, ?_, ?_, ?_, ?_, ?_, ?_, ?_, ?_, ?_, ?_, ?_⟩ <;>
    simp [stored]

theorem Inv.weaken (h : Inv s g G none) {k : Nat} (hk : ∀ i, s.phase k ≠ .made i) :
    Inv s g G (some k) :=
  { h with
    fresh := fun i c _ => h.fresh i c (by simp)
    made := fun i c j _ => h.made i c j (by simp)
    empty := fun i h1 h2 => by
      obtain ⟨k', c, _, h3, h4⟩ := h.empty i h1 h2
      refine ⟨k', c, ?_, h3, h4⟩
      intro h5
      cases h5
      exact hk i h4 }

theorem Dead.append {i : Nat} (h : Dead s g G i) (e : LabelEvent L LayerName) :
    Dead s g (G ++ [e]) i := by
  obtain ⟨A, d, B, h1, h2⟩ := h
  exact ⟨A, d, B ++ [e], by simp [h1], h2⟩

/-- An event that changes nothing. -/
theorem Inv.idle (h : Inv s g G none) {k : Nat} {c : LabelCall L LayerName}
    (hk : s.calls k = some c) (hp : s.phase k ≠ .done) (hm : ∀ i, s.phase k ≠ .made i)
    (hs : (callOn sameLabel (after G) c.op).2 = after G) :
    Inv s g (G ++ [⟨k, s.now, c.op, (callOn sameLabel (after G) c.op).1⟩]) (some k) := by
  have hst : after (G ++ [⟨k, s.now, c.op, (callOn sameLabel (after G) c.op).1⟩]) = after G := by
    rw [Spec.labelsAfter, stored_append]
    exact hs
  have hf := h.fresh k c (by simp) hk hm hp
  exact
  { h with
    lin := h.lin.snoc (e := ⟨k, s.now, c.op, _⟩) hk (h.unanswered k c hk hp) rfl (h.begun k c hk)
      hf h.past rfl
    past := by
      intro e he
      rw [List.mem_append, List.mem_singleton] at he
      rcases he with he | rfl
      · exact h.past e he
      · exact Nat.le_refl _
    inode := by
      rw [hst]
      exact h.inode
    gone := by
      rw [hst]
      exact h.gone
    dead := fun i h1 h2 => (h.dead i h1 h2).append _
    fresh := by
      intro i c' hi h1 h2 h3 e he
      rw [List.mem_append, List.mem_singleton] at he
      rcases he with he | rfl
      · exact h.fresh i c' (by simp) h1 h2 h3 e he
      · exact fun h => hi (by rw [← h])
    made := by
      intro i c' j hi h1 h2
      obtain ⟨m1, m2, m3, m0, e, m4, m5⟩ := h.made i c' j (by simp) h1 h2
      exact ⟨m1, m2, m3, m0, e, by simp [m4], m5⟩
    empty := (h.weaken hm).empty }

/-- A call returns. -/
theorem Inv.finish {k : Nat} (h : Inv s g G (some k)) {c : LabelCall L LayerName}
    (hk : s.calls k = some c) (r : LabelRes LayerName)
    (hr : r ≠ .unreadable → ∃ e ∈ G, e.id = k) (hs : ∀ e ∈ G, e.id = k → r = e.res)
    (hu : r = .unreadable → ∃ k' c', k' ≠ k ∧ s.calls k' = some c' ∧ c'.op = .create c.op.name ∧
      c'.answer = none) :
    Inv (s.answer k c r) g G none := by
  have hcall : ∀ i c', (s.answer k c r).calls i = some c' →
      (i = k ∧ c' = { c with answer := some (r, s.now) }) ∨ (i ≠ k ∧ s.calls i = some c') := by
    intro i c' hi
    by_cases e : i = k
    · subst e
      simp only [answer, putCall_same, Option.some.injEq] at hi
      exact Or.inl ⟨rfl, hi.symm⟩
    · simp only [answer, putCall_other _ _ e] at hi
      exact Or.inr ⟨e, hi⟩
  have hph : ∀ i, i ≠ k → (s.answer k c r).phase i = s.phase i := fun i hi => upd_other _ _ hi
  have hphk : (s.answer k c r).phase k = .done := upd_same _ _ _
  refine ⟨h.lin.finish hk r s.now hr (fun e he hi => ⟨hs e he hi, h.past e he⟩), ?_, ?_, h.inode,
    h.gone, ?_, h.killers, h.data, h.version, ?_, ?_, ?_, ?_, ?_, ?_, ?_, ?_, ?_⟩
  · intro e he
    exact Nat.le_succ_of_le (h.past e he)
  · intro i c' hi
    show c'.start ≤ s.now + 1
    rcases hcall i c' hi with ⟨rfl, rfl⟩ | ⟨_, hi⟩
    · exact Nat.le_succ_of_le (h.begun i c hk)
    · exact Nat.le_succ_of_le (h.begun i c' hi)
  · intro i h1 h2
    obtain ⟨A, d, B, d1, d2, d3, d4, d5⟩ := h.dead i h1 h2
    refine ⟨A, d, B, d1, d2, d3, d4, ?_⟩
    intro j c' hj hp
    rcases hcall j c' hj with ⟨rfl, rfl⟩ | ⟨hne, hj⟩
    · rw [hphk] at hp
      cases hp
    · rw [hph j hne] at hp
      exact d5 j c' hj hp
  · intro i c' n old layer hi ho
    rcases hcall i c' hi with ⟨rfl, rfl⟩ | ⟨_, hi⟩
    · exact h.setVersion i c n old layer hk ho
    · exact h.setVersion i c' n old layer hi ho
  · intro i c' j hi hp
    rcases hcall i c' hi with ⟨rfl, rfl⟩ | ⟨hne, hi⟩
    · rw [hphk] at hp
      cases hp
    · rw [hph i hne] at hp
      exact h.opened i c' j hi hp
  · intro i c' _ hi h1 h2
    rcases hcall i c' hi with ⟨rfl, rfl⟩ | ⟨hne, hi⟩
    · exact absurd hphk h2
    · rw [hph i hne] at h1 h2
      exact h.fresh i c' (by simpa using hne) hi h1 h2
  · intro i c' hi h1
    rcases hcall i c' hi with ⟨rfl, rfl⟩ | ⟨hne, hi⟩
    · exact absurd hphk h1
    · rw [hph i hne] at h1
      exact h.unanswered i c' hi h1
  · intro i c' j _ hi h1
    rcases hcall i c' hi with ⟨rfl, rfl⟩ | ⟨hne, hi⟩
    · rw [hphk] at h1
      cases h1
    · rw [hph i hne] at h1
      exact h.made i c' j (by simpa using hne) hi h1
  · intro i i' c' c'' j hi hi' h1 h2
    rcases hcall i c' hi with ⟨rfl, rfl⟩ | ⟨hne, hi⟩
    · rw [hphk] at h1
      cases h1
    · rcases hcall i' c'' hi' with ⟨rfl, rfl⟩ | ⟨hne', hi'⟩
      · rw [hphk] at h2
        cases h2
      · rw [hph i hne] at h1
        rw [hph i' hne'] at h2
        exact h.maker i i' c' c'' j hi hi' h1 h2
  · intro i h1 h2
    obtain ⟨k', c', h3, h4, h5⟩ := h.empty i h1 h2
    have hne : k' ≠ k := fun he => h3 (by rw [he])
    refine ⟨k', c', by simp, ?_, ?_⟩
    · show putCall s.calls k _ k' = some c'
      rw [putCall_other _ _ hne]
      exact h4
    · rw [hph k' hne]
      exact h5
  · intro i c' r' t hi ha
    show t < s.now + 1
    rcases hcall i c' hi with ⟨rfl, rfl⟩ | ⟨hne, hi⟩
    · cases ha
      exact Nat.lt_succ_self _
    · exact Nat.lt_succ_of_lt (h.ended i c' r' t hi ha)
  · have key : ∀ k' c' t n, s.calls k' = some c' → c'.op = .create n → c'.start ≤ t → t ≤ s.now →
        (∀ r t', c'.answer = some (r, t') → t < t') → (k' = k → t < s.now) →
        ∃ k' c', (s.answer k c r).calls k' = some c' ∧ c'.op = .create n ∧ c'.start ≤ t ∧
          ∀ r t', c'.answer = some (r, t') → t < t' := by
      intro k' c' t n h1 h2 h3 h4 h5 h6
      by_cases e : k' = k
      · subst e
        rw [hk] at h1
        cases h1
        refine ⟨k', _, putCall_same _ _ _, h2, h3, ?_⟩
        intro r' t' ha
        cases ha
        exact h6 rfl
      · exact ⟨k', c', by show putCall s.calls k _ k' = some c'; rw [putCall_other _ _ e]; exact h1,
          h2, h3, h5⟩
    intro i c' t hi ha
    rcases hcall i c' hi with ⟨rfl, rfl⟩ | ⟨hne, hi⟩
    · cases ha
      obtain ⟨k', c', u1, u2, u3, u4⟩ := hu rfl
      exact key k' c' _ _ u2 u3 (h.begun k' c' u2) (Nat.le_refl _)
        (fun r t' hr => by rw [u4] at hr; cases hr) (fun he => absurd he u1)
    · obtain ⟨k', c'', u1, u2, u3, u4⟩ := h.unread i c' t hi ha
      have := h.ended i c' _ t hi ha
      exact key k' c'' t _ u1 u2 u3 (by omega) u4 (fun _ => this)

/-- What a read or an update of an existing label answers and leaves. -/
def effect (l : LabelData LayerName) : LabelOp L LayerName → LabelRes LayerName × LabelData LayerName
  | .set _ old layer =>
    if l = old then (.set (some (updated old layer)), updated old layer) else (.set none, l)
  | _ => (.got (some l), l)

/-- A read or an update. -/
def Touches (op : LabelOp L LayerName) : Prop :=
  (∃ n, op = .get n) ∨ ∃ n old layer, op = .set n old layer

theorem callOn_effect {m : Labels L LayerName} {op : LabelOp L LayerName}
    {l : LabelData LayerName} (ho : Touches op) (hl : m op.name = some l) :
    callOn sameLabel m op = ((effect l op).1, m.put op.name (some (effect l op).2)) := by
  rcases ho with ⟨n, rfl⟩ | ⟨n, old, layer, rfl⟩
  · simp only [LabelOp.name] at hl
    simp only [callOn, effect, LabelOp.name, hl]
    rw [put_self m n hl]
  · simp only [LabelOp.name] at hl
    simp only [callOn, effect, LabelOp.name, hl, sameLabel, decide_eq_true_eq]
    split
    · rfl
    · rw [put_self m n hl]

/-- A call reads or updates the file it has open. -/
theorem Inv.touch (h : Inv s g G none) {k i : Nat} {c : LabelCall L LayerName}
    (hk : s.calls k = some c) (hp : s.phase k = .opened i) (ho : Touches c.op)
    (hd : s.data i = labelFile (g.label i)) :
    ∃ G', Inv { s with data := upd s.data i (labelFile (effect (g.label i) c.op).2) }
        { g with label := upd g.label i (effect (g.label i) c.op).2 } G' (some k) ∧
      (∃ e ∈ G', e.id = k) ∧ ∀ e ∈ G', e.id = k → e.res = (effect (g.label i) c.op).1 := by
  obtain ⟨hi, hown⟩ := h.opened k c i hk hp
  have hnd : s.phase k ≠ .done := by rw [hp]; intro h; cases h
  have hnm : ∀ j, s.phase k ≠ .made j := by intro j; rw [hp]; intro h; cases h
  have hfr := h.fresh k c (by simp) hk hnm hnd
  have hans := h.unanswered k c hk hnd
  have hver : (effect (g.label i) c.op).2.version < 2 ^ 64 := by
    rcases ho with ⟨n, e⟩ | ⟨n, old, layer, e⟩
    · rw [e]
      exact h.version i hi
    · rw [e]
      simp only [effect]
      split
      · exact h.setVersion k c n old layer hk e
      · exact h.version i hi
  have hdata : ∀ j, j < s.next → upd s.data i (labelFile (effect (g.label i) c.op).2) j =
      labelFile (upd g.label i (effect (g.label i) c.op).2 j) ∨
      upd s.data i (labelFile (effect (g.label i) c.op).2) j = [] := by
    intro j hj
    by_cases e : j = i
    · subst e
      rw [upd_same, upd_same]
      exact Or.inl rfl
    · rw [upd_other _ _ e, upd_other _ _ e]
      exact h.data j hj
  have hvers : ∀ j, j < s.next → (upd g.label i (effect (g.label i) c.op).2 j).version < 2 ^ 64 := by
    intro j hj
    by_cases e : j = i
    · subst e
      rw [upd_same]
      exact hver
    · rw [upd_other _ _ e]
      exact h.version j hj
  have hmade : ∀ (G' : List (LabelEvent L LayerName)), (∀ e ∈ G, e ∈ G') →
      ∀ k' c' j, some k' ≠ some k → s.calls k' = some c' → s.phase k' = .made j → j < s.next ∧
      upd s.data i (labelFile (effect (g.label i) c.op).2) j = [] ∧
      upd g.label i (effect (g.label i) c.op).2 j = .newEmpty ∧ c'.op = .create (g.owner j) ∧
      ∃ e ∈ G', e.id = k' ∧ e.res = .created := by
    intro G' hG' k' c' j _ hk' hp'
    obtain ⟨m1, m2, m3, m0, e, m4, m5⟩ := h.made k' c' j (by simp) hk' hp'
    have hne : j ≠ i := by
      rintro rfl
      have h1 : labelFile (g.label j) = [] := hd.symm.trans m2
      have h2 := readLabelFile_labelFile (g.label j) (h.version j hi)
      rw [h1, readLabelFile_empty] at h2
      cases h2
    rw [upd_other _ _ hne, upd_other _ _ hne]
    exact ⟨m1, m2, m3, m0, e, hG' e m4, m5⟩
  have hempty : ∀ j, j < s.next → upd s.data i (labelFile (effect (g.label i) c.op).2) j = [] →
      ∃ k' c', some k' ≠ some k ∧ s.calls k' = some c' ∧ s.phase k' = .made j := by
    intro j hj he
    have hne : j ≠ i := by
      rintro rfl
      rw [upd_same] at he
      have h2 := readLabelFile_labelFile _ hver
      rw [he, readLabelFile_empty] at h2
      cases h2
    rw [upd_other _ _ hne] at he
    exact (h.weaken hnm).empty j hj he
  by_cases hlive : s.dir (g.owner i) = some i
  · -- the file has its name
    obtain ⟨_, _, hst⟩ := h.inode _ _ hlive
    have hst' : after G c.op.name = some (g.label i) := by rw [← hown]; exact hst
    have hce := callOn_effect ho hst'
    have hafter : after (G ++ [⟨k, s.now, c.op, (effect (g.label i) c.op).1⟩]) =
        (after G).put (g.owner i) (some (effect (g.label i) c.op).2) := by
      rw [Spec.labelsAfter, stored_append, hown]
      exact congrArg Prod.snd hce
    refine ⟨G ++ [⟨k, s.now, c.op, (effect (g.label i) c.op).1⟩], ?_, ?_, ?_⟩
    · refine ⟨?_, ?_, h.begun, ?_, ?_, ?_, h.killers, hdata, hvers, h.setVersion, h.opened, ?_,
        h.unanswered, ?_, h.maker, hempty, h.ended, h.unread⟩
      · exact h.lin.snoc (e := ⟨k, s.now, c.op, _⟩) hk hans rfl (h.begun k c hk) hfr h.past
          (congrArg Prod.fst hce).symm
      · intro e he
        rw [List.mem_append, List.mem_singleton] at he
        rcases he with he | rfl
        · exact h.past e he
        · exact Nat.le_refl _
      · intro n j hj
        obtain ⟨j1, j2, j3⟩ := h.inode n j hj
        refine ⟨j1, j2, ?_⟩
        rw [hafter]
        by_cases e : n = g.owner i
        · subst e
          rw [hlive] at hj
          cases hj
          rw [put_same]
          show some _ = some (upd g.label i _ i)
          rw [upd_same]
        · rw [put_other _ _ e, j3]
          have : j ≠ i := by
            rintro rfl
            exact e j2.symm
          show some _ = some (upd g.label i _ j)
          rw [upd_other _ _ this]
      · intro n hn
        rw [hafter]
        have : n ≠ g.owner i := by
          rintro rfl
          rw [hlive] at hn
          cases hn
        rw [put_other _ _ this]
        exact h.gone n hn
      · intro j hj hdj
        obtain ⟨A, d, B, d1, d2, d3, d4, d5⟩ := h.dead j hj hdj
        have : j ≠ i := by
          rintro rfl
          exact hdj hlive
        refine ⟨A, d, B ++ [⟨k, s.now, c.op, (effect (g.label i) c.op).1⟩], by simp [d1], d2, d3,
          ?_, d5⟩
        show _ = some (upd g.label i _ j)
        rw [upd_other _ _ this]
        exact d4
      · intro k' c' hx h1 h2 h3 e he
        rw [List.mem_append, List.mem_singleton] at he
        rcases he with he | rfl
        · exact h.fresh k' c' (by simp) h1 h2 h3 e he
        · exact fun h => hx (by rw [← h])
      · exact hmade _ (fun e he => List.mem_append_left _ he)
    · exact ⟨_, List.mem_append_right _ (List.mem_singleton.2 rfl), rfl⟩
    · intro e he hid
      rw [List.mem_append, List.mem_singleton] at he
      rcases he with he | rfl
      · exact absurd hid (hfr e he)
      · rfl
  · -- the name of the file is gone
    obtain ⟨A, d, B, d1, d2, d3, d4, d5⟩ := h.dead i hi hlive
    have hst' : after A c.op.name = some (g.label i) := by rw [← hown]; exact d4
    have hce := callOn_effect ho hst'
    have hans' := h.lin.answered
    rw [d1] at hans'
    have hput : (callOn sameLabel (after A) c.op).2 (g.owner i) =
        some (effect (g.label i) c.op).2 := by
      rw [hce, hown]
      exact put_same _ _ _
    obtain ⟨i1, i2⟩ := insert_before_delete (e := ⟨k, d.time, c.op, (effect (g.label i) c.op).1⟩)
      d2 hans' d4 hown.symm hput (congrArg Prod.fst hce).symm
    have hstart := d5 k c hk hp
    -- the state after the deletion is the same
    have hsame : ∀ C, after (A ++ ⟨k, d.time, c.op, (effect (g.label i) c.op).1⟩ :: d :: C) =
        after (A ++ d :: C) := by
      intro C
      have e1 : A ++ ⟨k, d.time, c.op, (effect (g.label i) c.op).1⟩ :: d :: C =
        (A ++ [⟨k, d.time, c.op, (effect (g.label i) c.op).1⟩, d]) ++ C := by simp
      have e2 : A ++ d :: C = (A ++ [d]) ++ C := by simp
      rw [Spec.labelsAfter, Spec.labelsAfter, e1, e2, stored_append, i2, ← stored_append]
    have hmem : ∀ e, e ∈ A ++ ⟨k, d.time, c.op, (effect (g.label i) c.op).1⟩ :: d :: B ↔
        e ∈ G ∨ e = ⟨k, d.time, c.op, (effect (g.label i) c.op).1⟩ := by
      intro e
      rw [d1]
      simp only [List.mem_append, List.mem_cons]
      constructor
      · rintro (h | h | h | h)
        · exact Or.inl (Or.inl h)
        · exact Or.inr h
        · exact Or.inl (Or.inr (Or.inl h))
        · exact Or.inl (Or.inr (Or.inr h))
      · rintro ((h | h | h) | h)
        · exact Or.inl h
        · exact Or.inr (Or.inr (Or.inl h))
        · exact Or.inr (Or.inr (Or.inr h))
        · exact Or.inr (Or.inl h)
    have hafter : after (A ++ ⟨k, d.time, c.op, (effect (g.label i) c.op).1⟩ :: d :: B) =
        after G := by
      rw [hsame, d1]
    have hnolive : ∀ n j, s.dir n = some j → j ≠ i := by
      rintro n j hj rfl
      have := (h.inode n j hj).2.1
      rw [this] at hlive
      exact hlive hj
    refine ⟨A ++ ⟨k, d.time, c.op, (effect (g.label i) c.op).1⟩ :: d :: B, ?_, ?_, ?_⟩
    · refine ⟨?_, ?_, h.begun, ?_, ?_, ?_, h.killers, hdata, hvers, h.setVersion, h.opened, ?_,
        h.unanswered, ?_, h.maker, hempty, h.ended, h.unread⟩
      · have hso := h.lin.sorted
        have hon := h.lin.once
        rw [d1] at hso hon
        rw [List.pairwise_append] at hso hon
        have hso2 := List.pairwise_cons.1 hso.2.1
        refine ⟨i1, ?_, ?_, ?_, ?_⟩
        · rw [List.pairwise_append]
          refine ⟨hso.1, List.pairwise_cons.2 ⟨?_, hso.2.1⟩, ?_⟩
          · intro e he
            rcases List.mem_cons.1 he with rfl | he
            · exact Nat.le_refl _
            · exact hso2.1 e he
          · intro a ha b hb
            rcases List.mem_cons.1 hb with rfl | hb
            · exact hso.2.2 a ha d (by simp)
            · exact hso.2.2 a ha b hb
        · have hfr' : ∀ e, e ∈ A ∨ e ∈ d :: B → e.id ≠ k := by
            intro e he
            apply hfr
            rw [d1, List.mem_append]
            exact he
          rw [List.pairwise_append]
          refine ⟨hon.1, List.pairwise_cons.2 ⟨?_, hon.2.1⟩, ?_⟩
          · intro e he
            exact fun h => hfr' e (Or.inr he) h.symm
          · intro a ha b hb
            rcases List.mem_cons.1 hb with rfl | hb
            · exact hfr' a (Or.inl ha)
            · exact hon.2.2 a ha b hb
        · intro j c' r t hj hc' hr
          obtain ⟨e, he, hid⟩ := h.lin.complete j c' r t hj hc' hr
          exact ⟨e, (hmem e).2 (Or.inl he), hid⟩
        · intro e he
          rcases (hmem e).1 he with he | rfl
          · exact h.lin.sound e he
          · exact ⟨c, hk, rfl, hstart, fun r t hrt => by rw [hans] at hrt; cases hrt⟩
      · intro e he
        rcases (hmem e).1 he with he | rfl
        · exact h.past e he
        · exact h.past d (by rw [d1]; simp)
      · intro n j hj
        obtain ⟨j1, j2, j3⟩ := h.inode n j hj
        refine ⟨j1, j2, ?_⟩
        rw [hafter, j3]
        show some _ = some (upd g.label i _ j)
        rw [upd_other _ _ (hnolive n j hj)]
      · intro n hn
        rw [hafter]
        exact h.gone n hn
      · intro j hj hdj
        by_cases e : j = i
        · subst e
          refine ⟨A ++ [⟨k, d.time, c.op, (effect (g.label j) c.op).1⟩], d, B, by simp, d2, d3, ?_,
            d5⟩
          show after (A ++ [_]) (g.owner j) = some (upd g.label j _ j)
          rw [upd_same, Spec.labelsAfter, stored_append]
          exact hput
        · obtain ⟨A', d', B', f1, f2, f3, f4, f5⟩ := h.dead j hj hdj
          have hkill : d'.id ≠ d.id := by
            intro hc
            rw [f3, d3] at hc
            exact e (h.killers j i hj hi hdj hlive hc)
          have hgoal : ∀ C D, A ++ ⟨k, d.time, c.op, (effect (g.label i) c.op).1⟩ :: d :: B =
              C ++ d' :: D → after C (g.owner j) = some (g.label j) →
              Dead { s with data := upd s.data i (labelFile (effect (g.label i) c.op).2) }
                { g with label := upd g.label i (effect (g.label i) c.op).2 }
                (A ++ ⟨k, d.time, c.op, (effect (g.label i) c.op).1⟩ :: d :: B) j := by
            intro C D hCD hC
            refine ⟨C, d', D, hCD, f2, f3, ?_, f5⟩
            show _ = some (upd g.label i _ j)
            rw [upd_other _ _ e]
            exact hC
          rw [d1] at f1
          rcases List.append_eq_append_iff.1 f1 with ⟨C, c1, c2⟩ | ⟨C, c1, c2⟩
          · cases C with
            | nil =>
              simp only [List.nil_append, List.cons.injEq] at c2
              exact absurd (by rw [c2.1]) hkill
            | cons y C =>
              simp only [List.cons_append, List.cons.injEq] at c2
              obtain ⟨rfl, c2⟩ := c2
              refine hgoal (A ++ ⟨k, d.time, c.op, (effect (g.label i) c.op).1⟩ :: d :: C) B'
                (by rw [c2]; simp) ?_
              rw [hsame, ← c1]
              exact f4
          · cases C with
            | nil =>
              simp only [List.nil_append, List.cons.injEq] at c2
              exact absurd (by rw [c2.1]) hkill
            | cons y C =>
              simp only [List.cons_append, List.cons.injEq] at c2
              obtain ⟨rfl, c2⟩ := c2
              refine hgoal A' (C ++ ⟨k, d.time, c.op, (effect (g.label i) c.op).1⟩ :: d :: B)
                (by rw [c1]; simp) f4
      · intro k' c' hx h1 h2 h3 e he
        rcases (hmem e).1 he with he | rfl
        · exact h.fresh k' c' (by simp) h1 h2 h3 e he
        · exact fun h => hx (by rw [← h])
      · exact hmade _ (fun e he => (hmem e).2 (Or.inl he))
    · exact ⟨_, (hmem _).2 (Or.inr rfl), rfl⟩
    · intro e he hid
      rcases (hmem e).1 he with he | rfl
      · exact absurd hid (hfr e he)
      · rfl

/-! ### The steps -/

/-- A new call. -/
theorem Inv.begin (h : Inv s g G none) {i : Nat} {op : LabelOp L LayerName}
    (hi : s.calls i = none)
    (hv : ∀ n old layer, op = .set n old layer → old.version + 1 < 2 ^ 64) :
    Inv { s with calls := putCall s.calls i ⟨op, s.now, none⟩
                 phase := upd s.phase i .begun
                 now := s.now + 1 } g G none := by
  have hcall : ∀ k c, putCall s.calls i ⟨op, s.now, none⟩ k = some c →
      (k = i ∧ c = ⟨op, s.now, none⟩) ∨ (k ≠ i ∧ s.calls k = some c) := by
    intro k c hk
    by_cases e : k = i
    · subst e
      rw [putCall_same] at hk
      exact Or.inl ⟨rfl, (Option.some.inj hk).symm⟩
    · rw [putCall_other _ _ e] at hk
      exact Or.inr ⟨e, hk⟩
  refine ⟨h.lin.start hi op _, ?_, ?_, h.inode, h.gone, ?_, h.killers, h.data, h.version, ?_, ?_,
    ?_, ?_, ?_, ?_, ?_, ?_, ?_⟩
  · intro e he
    exact Nat.le_succ_of_le (h.past e he)
  · intro k c hk
    show c.start ≤ s.now + 1
    rcases hcall k c hk with ⟨rfl, rfl⟩ | ⟨_, hk⟩
    · exact Nat.le_succ _
    · exact Nat.le_succ_of_le (h.begun k c hk)
  · intro j h1 h2
    obtain ⟨A, d, B, d1, d2, d3, d4, d5⟩ := h.dead j h1 h2
    refine ⟨A, d, B, d1, d2, d3, d4, ?_⟩
    intro k c hk hp
    dsimp only at hp
    rcases hcall k c hk with ⟨rfl, rfl⟩ | ⟨hne, hk⟩
    · rw [upd_same] at hp
      cases hp
    · rw [upd_other _ _ hne] at hp
      exact d5 k c hk hp
  · intro k c n old layer hk ho
    rcases hcall k c hk with ⟨rfl, rfl⟩ | ⟨_, hk⟩
    · exact hv n old layer ho
    · exact h.setVersion k c n old layer hk ho
  · intro k c j hk hp
    dsimp only at hp
    rcases hcall k c hk with ⟨rfl, rfl⟩ | ⟨hne, hk⟩
    · rw [upd_same] at hp
      cases hp
    · rw [upd_other _ _ hne] at hp
      exact h.opened k c j hk hp
  · intro k c hx hk h1 h2
    dsimp only at h1 h2
    rcases hcall k c hk with ⟨rfl, rfl⟩ | ⟨hne, hk⟩
    · intro e he hid
      obtain ⟨c', h3, _⟩ := h.lin.sound e he
      rw [hid, hi] at h3
      cases h3
    · rw [upd_other _ _ hne] at h1 h2
      exact h.fresh k c hx hk h1 h2
  · intro k c hk h1
    dsimp only at h1
    rcases hcall k c hk with ⟨rfl, rfl⟩ | ⟨hne, hk⟩
    · rfl
    · rw [upd_other _ _ hne] at h1
      exact h.unanswered k c hk h1
  · intro k c j hx hk h1
    dsimp only at h1
    rcases hcall k c hk with ⟨rfl, rfl⟩ | ⟨hne, hk⟩
    · rw [upd_same] at h1
      cases h1
    · rw [upd_other _ _ hne] at h1
      exact h.made k c j hx hk h1
  · intro k k' c c' j hk hk' h1 h2
    dsimp only at h1 h2
    rcases hcall k c hk with ⟨rfl, rfl⟩ | ⟨hne, hk⟩
    · rw [upd_same] at h1
      cases h1
    · rcases hcall k' c' hk' with ⟨rfl, rfl⟩ | ⟨hne', hk'⟩
      · rw [upd_same] at h2
        cases h2
      · rw [upd_other _ _ hne] at h1
        rw [upd_other _ _ hne'] at h2
        exact h.maker k k' c c' j hk hk' h1 h2
  · intro j h1 h2
    obtain ⟨k, c, h3, h4, h5⟩ := h.empty j h1 h2
    have hne : k ≠ i := by
      rintro rfl
      rw [hi] at h4
      cases h4
    exact ⟨k, c, h3, (putCall_other _ _ hne).trans h4, by
      show upd s.phase i .begun k = _
      rw [upd_other _ _ hne]; exact h5⟩
  · intro k c r t hk ha
    show t < s.now + 1
    rcases hcall k c hk with ⟨rfl, rfl⟩ | ⟨hne, hk⟩
    · cases ha
    · exact Nat.lt_succ_of_lt (h.ended k c r t hk ha)
  · intro k c t hk ha
    rcases hcall k c hk with ⟨rfl, rfl⟩ | ⟨hne, hk⟩
    · cases ha
    · obtain ⟨k', c', u1, u2, u3, u4⟩ := h.unread k c t hk ha
      have hne : k' ≠ i := by
        rintro rfl
        rw [hi] at u1
        cases u1
      exact ⟨k', c', (putCall_other _ _ hne).trans u1, u2, u3, u4⟩

/-- A call opens a file or has checked that there is none. -/
theorem Inv.move (h : Inv s g G none) {i : Nat} {c : LabelCall L LayerName} {p : Phase}
    (hi : s.calls i = some c) (hp : s.phase i = .begun)
    (hq : p = .checked ∨ ∃ j, p = .opened j ∧ s.dir c.op.name = some j) :
    Inv (s.goto i p) g G none := by
  have hother : ∀ k, k ≠ i → (s.goto i p).phase k = s.phase k := fun k hk => upd_other _ _ hk
  have hself : (s.goto i p).phase i = p := upd_same _ _ _
  have hnm : ∀ j, p ≠ .made j := by
    intro j
    rcases hq with rfl | ⟨_, rfl, _⟩ <;> exact fun h => by cases h
  have hi2 : s.phase i ≠ .done := by rw [hp]; intro h; cases h
  have hi3 : ∀ j, s.phase i ≠ .made j := by intro j; rw [hp]; intro h; cases h
  refine ⟨h.lin, ?_, ?_, h.inode, h.gone, ?_, h.killers, h.data, h.version, h.setVersion, ?_,
    ?_, ?_, ?_, ?_, ?_, ?_, h.unread⟩
  · intro e he
    exact Nat.le_succ_of_le (h.past e he)
  · intro k c' hk
    exact Nat.le_succ_of_le (h.begun k c' hk)
  · intro j h1 h2
    obtain ⟨A, d, B, d1, d2, d3, d4, d5⟩ := h.dead j h1 h2
    refine ⟨A, d, B, d1, d2, d3, d4, ?_⟩
    intro k c' hk hpk
    by_cases e : k = i
    · subst e
      rw [hself] at hpk
      rcases hq with rfl | ⟨j', rfl, hq⟩
      · cases hpk
      · cases hpk
        have := (h.inode _ _ hq).2.1
        rw [this] at h2
        exact absurd hq h2
    · rw [hother k e] at hpk
      exact d5 k c' hk hpk
  · intro k c' j hk hpk
    by_cases e : k = i
    · subst e
      rw [hself] at hpk
      rcases hq with rfl | ⟨j', rfl, hq⟩
      · cases hpk
      · cases hpk
        obtain ⟨a1, a2, _⟩ := h.inode _ _ hq
        have : c' = c := Option.some.inj (hk.symm.trans hi)
        subst this
        exact ⟨a1, a2⟩
    · rw [hother k e] at hpk
      exact h.opened k c' j hk hpk
  · intro k c' hx hk h1 h2
    by_cases e : k = i
    · subst e
      exact h.fresh k c' hx hk hi3 hi2
    · rw [hother k e] at h1 h2
      exact h.fresh k c' hx hk h1 h2
  · intro k c' hk h1
    by_cases e : k = i
    · subst e
      exact h.unanswered k c' hk hi2
    · rw [hother k e] at h1
      exact h.unanswered k c' hk h1
  · intro k c' j hx hk h1
    by_cases e : k = i
    · subst e
      rw [hself] at h1
      exact absurd h1 (hnm j)
    · rw [hother k e] at h1
      exact h.made k c' j hx hk h1
  · intro k k' c' c'' j hk hk' h1 h2
    by_cases e : k = i
    · subst e
      rw [hself] at h1
      exact absurd h1 (hnm j)
    · by_cases e' : k' = i
      · subst e'
        rw [hself] at h2
        exact absurd h2 (hnm j)
      · rw [hother k e] at h1
        rw [hother k' e'] at h2
        exact h.maker k k' c' c'' j hk hk' h1 h2
  · intro j h1 h2
    obtain ⟨k, c', h3, h4, h5⟩ := h.empty j h1 h2
    have hne : k ≠ i := by
      rintro rfl
      exact hi3 j h5
    exact ⟨k, c', h3, h4, by rw [hother k hne]; exact h5⟩
  · intro k c' r t hk ha
    exact Nat.lt_succ_of_lt (h.ended k c' r t hk ha)

/-- A call that changes nothing returns. -/
theorem Inv.idleAnswer (h : Inv s g G none) {k : Nat} {c : LabelCall L LayerName}
    {r : LabelRes LayerName} (hk : s.calls k = some c) (hp : s.phase k ≠ .done)
    (hm : ∀ i, s.phase k ≠ .made i) (hs : callOn sameLabel (after G) c.op = (r, after G)) :
    ∃ G', Inv (s.answer k c r) g G' none := by
  have hf := h.fresh k c (by simp) hk hm hp
  have := h.idle hk hp hm (congrArg Prod.snd hs)
  refine ⟨_, this.finish hk r (fun _ => ⟨_, List.mem_append_right _ (List.mem_singleton.2 rfl), rfl⟩)
    ?_ ?_⟩
  · intro e he hid
    rw [List.mem_append, List.mem_singleton] at he
    rcases he with he | rfl
    · exact absurd hid (hf e he)
    · show r = _
      rw [hs]
  · rintro rfl
    exact absurd (congrArg Prod.fst hs) (callOn_readable _ _)

/-- Reading an empty file: somebody is making it. -/
theorem Inv.maker_of_empty (h : Inv s g G none) {k i : Nat} {c : LabelCall L LayerName}
    (hk : s.calls k = some c) (hp : s.phase k = .opened i) (hd : s.data i = []) :
    ∃ k' c', k' ≠ k ∧ s.calls k' = some c' ∧ c'.op = .create c.op.name ∧ c'.answer = none := by
  obtain ⟨hi, ho⟩ := h.opened k c i hk hp
  obtain ⟨k', c', _, h2, h3⟩ := h.empty i hi hd
  refine ⟨k', c', ?_, h2, ?_, h.unanswered k' c' h2 (by rw [h3]; simp)⟩
  · rintro rfl
    rw [hp] at h3
    cases h3
  · rw [(h.made k' c' i (by simp) h2 h3).2.2.2.1, ho]

theorem Inv.readStep (h : Inv s g G none) {k i : Nat} {c : LabelCall L LayerName} {n : L}
    (hk : s.calls k = some c) (hp : s.phase k = .opened i) (ho : c.op = .get n) :
    ∃ g' G', Inv (s.answer k c (readResult (s.data i))) g' G' none := by
  obtain ⟨hi, _⟩ := h.opened k c i hk hp
  rcases h.data i hi with hd | hd
  · obtain ⟨G', h1, h2, h3⟩ := h.touch hk hp (Or.inl ⟨n, ho⟩) hd
    have hr : readResult (s.data i) = (effect (g.label i) c.op).1 := by
      rw [hd, readResult, readLabelFile_labelFile _ (h.version i hi), ho]
      rfl
    have he : (effect (g.label i) c.op).2 = g.label i := by rw [ho]; rfl
    rw [he] at h1
    have e1 : upd s.data i (labelFile (g.label i)) = s.data := by
      funext j
      by_cases e : j = i
      · rw [e, upd_same, hd]
      · rw [upd_other _ _ e]
    rw [e1] at h1
    exact ⟨_, _, h1.finish hk _ (fun _ => h2) (fun e he hid => by rw [hr, h3 e he hid])
      (fun hc => by rw [hr, ho] at hc; cases hc)⟩
  · have hr : readResult (s.data i) = .unreadable := by
      rw [hd, readResult, readLabelFile_empty]
    rw [hr]
    refine ⟨_, _, (h.weaken (k := k) (by rw [hp]; simp)).finish hk _ (fun hc => absurd rfl hc) ?_
      (fun _ => h.maker_of_empty hk hp hd)⟩
    intro e he hid
    exact absurd hid (h.fresh k c (by simp) hk (by rw [hp]; simp) (by rw [hp]; simp) e he)

theorem Inv.writeStep (h : Inv s g G none) {k i : Nat} {c : LabelCall L LayerName} {n : L}
    {old : LabelData LayerName} {layer : Option LayerName}
    (hk : s.calls k = some c) (hp : s.phase k = .opened i) (ho : c.op = .set n old layer) :
    ∃ g' G', Inv ({ s with data := upd s.data i (setResult (s.data i) old layer).2 }.answer k c
        (setResult (s.data i) old layer).1) g' G' none := by
  obtain ⟨hi, _⟩ := h.opened k c i hk hp
  rcases h.data i hi with hd | hd
  · obtain ⟨G', h1, h2, h3⟩ := h.touch hk hp (Or.inr ⟨n, old, layer, ho⟩) hd
    have hr : setResult (s.data i) old layer =
        ((effect (g.label i) c.op).1, labelFile (effect (g.label i) c.op).2) := by
      rw [hd, setResult, readLabelFile_labelFile _ (h.version i hi), ho]
      simp only [effect]
      split <;> rfl
    rw [hr]
    exact ⟨_, _, h1.finish hk _ (fun _ => h2) (fun e he hid => by rw [h3 e he hid])
      (fun hc => by rw [ho] at hc; simp only [effect] at hc; split at hc <;> cases hc)⟩
  · have hr : setResult (s.data i) old layer = (.unreadable, s.data i) := by
      rw [hd, setResult, readLabelFile_empty]
    rw [hr]
    have e1 : upd s.data i (s.data i) = s.data := by
      funext j
      by_cases e : j = i
      · rw [e, upd_same]
      · rw [upd_other _ _ e]
    dsimp only
    rw [e1]
    refine ⟨_, _, (h.weaken (k := k) (by rw [hp]; simp)).finish hk _ (fun hc => absurd rfl hc) ?_
      (fun _ => h.maker_of_empty hk hp hd)⟩
    intro e he hid
    exact absurd hid (h.fresh k c (by simp) hk (by rw [hp]; simp) (by rw [hp]; simp) e he)

theorem Inv.makeStep (h : Inv s g G none) {k : Nat} {c : LabelCall L LayerName} {n : L}
    (hk : s.calls k = some c) (hp : s.phase k = .checked) (ho : c.op = .create n)
    (hn : s.dir n = none) :
    ∃ g' G', Inv ({ s with dir := upd s.dir n (some s.next)
                           data := upd s.data s.next []
                           next := s.next + 1 }.goto k (.made s.next)) g' G' none := by
  have hnd : s.phase k ≠ .done := by rw [hp]; simp
  have hnm : ∀ i, s.phase k ≠ .made i := by rw [hp]; simp
  have hfr := h.fresh k c (by simp) hk hnm hnd
  have hans := h.unanswered k c hk hnd
  have hgone := h.gone n hn
  have hce : callOn sameLabel (after G) (.create n) =
      (.created, (after G).put n (some ⟨none, 0⟩)) := by
    simp only [callOn, hgone]
  have hafter : after (G ++ [⟨k, s.now, .create n, .created⟩]) =
      (after G).put n (some ⟨none, 0⟩) := by
    rw [Spec.labelsAfter, stored_append]
    exact congrArg Prod.snd hce
  have hlt : ∀ m i, s.dir m = some i → i ≠ s.next := by
    intro m i hm
    have := (h.inode m i hm).1
    omega
  have hph : ∀ k', k' ≠ k → upd s.phase k (.made s.next) k' = s.phase k' :=
    fun k' hk' => upd_other _ _ hk'
  have hdead : ∀ i, i < s.next → upd s.dir n (some s.next) (g.owner i) ≠ some i →
      s.dir (g.owner i) ≠ some i := by
    intro i hi hc h2
    by_cases e : g.owner i = n
    · rw [e, hn] at h2
      cases h2
    · rw [upd_other _ _ e] at hc
      exact hc h2
  refine ⟨⟨upd g.owner s.next n, upd g.label s.next .newEmpty, g.killer⟩,
    G ++ [⟨k, s.now, .create n, .created⟩], ?_⟩
  have hown : ∀ i, i ≠ s.next → upd g.owner s.next n i = g.owner i := fun i hi => upd_other _ _ hi
  have hlab : ∀ i, i ≠ s.next → upd g.label s.next .newEmpty i = g.label i :=
    fun i hi => upd_other _ _ hi
  refine ⟨?_, ?_, ?_, ?_, ?_, ?_, ?_, ?_, ?_, h.setVersion, ?_, ?_, ?_, ?_, ?_, ?_, ?_, h.unread⟩
  · exact h.lin.snoc (e := ⟨k, s.now, .create n, .created⟩) hk hans ho (h.begun k c hk) hfr h.past
      (congrArg Prod.fst hce).symm
  · intro e he
    show e.time ≤ s.now + 1
    rw [List.mem_append, List.mem_singleton] at he
    rcases he with he | rfl
    · exact Nat.le_succ_of_le (h.past e he)
    · exact Nat.le_succ _
  · intro i c' hi
    exact Nat.le_succ_of_le (h.begun i c' hi)
  · intro m i hm
    show i < s.next + 1 ∧ upd g.owner s.next n i = m ∧
      _ = some (upd g.label s.next .newEmpty i)
    replace hm : upd s.dir n (some s.next) m = some i := hm
    rw [hafter]
    by_cases e : m = n
    · subst e
      rw [upd_same] at hm
      cases hm
      rw [upd_same, upd_same, put_same]
      exact ⟨Nat.lt_succ_self _, rfl, rfl⟩
    · rw [upd_other _ _ e] at hm
      obtain ⟨a1, a2, a3⟩ := h.inode m i hm
      rw [hown i (hlt m i hm), hlab i (hlt m i hm), put_other _ _ e]
      exact ⟨by omega, a2, a3⟩
  · intro m hm
    replace hm : upd s.dir n (some s.next) m = none := hm
    rw [hafter]
    have e : m ≠ n := by
      rintro rfl
      rw [upd_same] at hm
      cases hm
    rw [put_other _ _ e]
    rw [upd_other _ _ e] at hm
    exact h.gone m hm
  · intro i hi hd
    replace hi : i < s.next + 1 := hi
    replace hd : upd s.dir n (some s.next) (upd g.owner s.next n i) ≠ some i := hd
    have hne : i ≠ s.next := by
      rintro rfl
      rw [upd_same, upd_same] at hd
      exact hd rfl
    rw [hown i hne] at hd
    have hi' : i < s.next := by omega
    obtain ⟨A, d, B, d1, d2, d3, d4, d5⟩ := h.dead i hi' (hdead i hi' hd)
    refine ⟨A, d, B ++ [⟨k, s.now, .create n, .created⟩], by simp [d1], ?_, d3, ?_, ?_⟩
    · show d.op = .delete (upd g.owner s.next n i)
      rw [hown i hne]
      exact d2
    · show after A (upd g.owner s.next n i) = some (upd g.label s.next .newEmpty i)
      rw [hown i hne, hlab i hne]
      exact d4
    · intro k' c' hk' hp'
      replace hp' : upd s.phase k (.made s.next) k' = .opened i := hp'
      by_cases e : k' = k
      · subst e
        rw [upd_same] at hp'
        cases hp'
      · rw [hph k' e] at hp'
        exact d5 k' c' hk' hp'
  · intro i j hi hj hdi hdj
    replace hi : i < s.next + 1 := hi
    replace hj : j < s.next + 1 := hj
    replace hdi : upd s.dir n (some s.next) (upd g.owner s.next n i) ≠ some i := hdi
    replace hdj : upd s.dir n (some s.next) (upd g.owner s.next n j) ≠ some j := hdj
    have hne : i ≠ s.next := by
      rintro rfl
      rw [upd_same, upd_same] at hdi
      exact hdi rfl
    have hne' : j ≠ s.next := by
      rintro rfl
      rw [upd_same, upd_same] at hdj
      exact hdj rfl
    rw [hown i hne] at hdi
    rw [hown j hne'] at hdj
    have hi' : i < s.next := by omega
    have hj' : j < s.next := by omega
    exact h.killers i j hi' hj' (hdead i hi' hdi) (hdead j hj' hdj)
  · intro i hi
    show upd s.data s.next [] i = labelFile (upd g.label s.next .newEmpty i) ∨
      upd s.data s.next [] i = []
    replace hi : i < s.next + 1 := hi
    by_cases e : i = s.next
    · subst e
      rw [upd_same]
      exact Or.inr rfl
    · rw [hlab i e, upd_other _ _ e]
      exact h.data i (by omega)
  · intro i hi
    show (upd g.label s.next .newEmpty i).version < 2 ^ 64
    replace hi : i < s.next + 1 := hi
    by_cases e : i = s.next
    · subst e
      rw [upd_same]
      exact Nat.two_pow_pos 64
    · rw [hlab i e]
      exact h.version i (by omega)
  · intro k' c' i hk' hp'
    show i < s.next + 1 ∧ upd g.owner s.next n i = c'.op.name
    replace hp' : upd s.phase k (.made s.next) k' = .opened i := hp'
    by_cases e : k' = k
    · subst e
      rw [upd_same] at hp'
      cases hp'
    · rw [hph k' e] at hp'
      obtain ⟨a1, a2⟩ := h.opened k' c' i hk' hp'
      rw [hown i (by omega)]
      exact ⟨by omega, a2⟩
  · intro k' c' _ hk' h1 h2
    replace h1 : ∀ i, upd s.phase k (.made s.next) k' ≠ .made i := h1
    replace h2 : upd s.phase k (.made s.next) k' ≠ .done := h2
    by_cases e : k' = k
    · subst e
      exact absurd (upd_same _ _ _) (h1 s.next)
    · rw [hph k' e] at h1 h2
      intro e' he
      rw [List.mem_append, List.mem_singleton] at he
      rcases he with he | rfl
      · exact h.fresh k' c' (by simp) hk' h1 h2 e' he
      · exact fun h => e h.symm
  · intro k' c' hk' h2
    replace h2 : upd s.phase k (.made s.next) k' ≠ .done := h2
    by_cases e : k' = k
    · subst e
      exact h.unanswered k' c' hk' hnd
    · rw [hph k' e] at h2
      exact h.unanswered k' c' hk' h2
  · intro k' c' i _ hk' h1
    show i < s.next + 1 ∧ upd s.data s.next [] i = [] ∧
      upd g.label s.next .newEmpty i = .newEmpty ∧ c'.op = .create (upd g.owner s.next n i) ∧ _
    replace h1 : upd s.phase k (.made s.next) k' = .made i := h1
    by_cases e : k' = k
    · subst e
      rw [upd_same] at h1
      cases h1
      rw [upd_same, upd_same, upd_same]
      have hcc : c = c' := Option.some.inj (hk.symm.trans hk')
      subst hcc
      exact ⟨Nat.lt_succ_self _, rfl, rfl, ho, _, List.mem_append_right _ (List.mem_singleton.2 rfl),
        rfl, rfl⟩
    · rw [hph k' e] at h1
      obtain ⟨m1, m2, m3, m0, e', m4, m5⟩ := h.made k' c' i (by simp) hk' h1
      have hne : i ≠ s.next := by omega
      rw [upd_other _ _ hne, hlab i hne, hown i hne]
      exact ⟨by omega, m2, m3, m0, e', List.mem_append_left _ m4, m5⟩
  · intro k1 k2 c1 c2 i hk1 hk2 h1 h2
    replace h1 : upd s.phase k (.made s.next) k1 = .made i := h1
    replace h2 : upd s.phase k (.made s.next) k2 = .made i := h2
    by_cases e1 : k1 = k
    · by_cases e2 : k2 = k
      · rw [e1, e2]
      · rw [e1, upd_same] at h1
        cases h1
        rw [hph k2 e2] at h2
        have := (h.made k2 c2 _ (by simp) hk2 h2).1
        omega
    · rw [hph k1 e1] at h1
      by_cases e2 : k2 = k
      · rw [e2, upd_same] at h2
        cases h2
        have := (h.made k1 c1 _ (by simp) hk1 h1).1
        omega
      · rw [hph k2 e2] at h2
        exact h.maker k1 k2 c1 c2 i hk1 hk2 h1 h2
  · intro i hi he
    replace hi : i < s.next + 1 := hi
    replace he : upd s.data s.next [] i = [] := he
    by_cases e : i = s.next
    · subst e
      exact ⟨k, c, by simp, hk, upd_same _ _ _⟩
    · rw [upd_other _ _ e] at he
      obtain ⟨k', c', h3, h4, h5⟩ := h.empty i (by omega) he
      have hne : k' ≠ k := by
        rintro rfl
        exact hnm i h5
      exact ⟨k', c', h3, h4, by
        show upd s.phase k (.made s.next) k' = _
        rw [hph k' hne]; exact h5⟩
  · intro k' c' r t hk' ha
    exact Nat.lt_succ_of_lt (h.ended k' c' r t hk' ha)

theorem Inv.fillStep (h : Inv s g G none) {k i : Nat} {c : LabelCall L LayerName}
    (hk : s.calls k = some c) (hp : s.phase k = .made i) :
    ∃ g' G', Inv ({ s with data := upd s.data i (labelFile .newEmpty) }.answer k c .created)
      g' G' none := by
  obtain ⟨m1, m2, m3, _, e, m4, m5, m6⟩ := h.made k c i (by simp) hk hp
  refine ⟨g, G, ?_⟩
  refine Inv.finish (s := { s with data := upd s.data i (labelFile .newEmpty) }) ?_ hk _
    (fun _ => ⟨e, m4, m5⟩) ?_ (fun hc => by cases hc)
  · refine { h with data := ?_, made := ?_, dead := h.dead, fresh := ?_, empty := ?_ }
    · intro j hj
      show upd s.data i _ j = _ ∨ upd s.data i _ j = _
      by_cases e : j = i
      · subst e
        rw [upd_same, m3]
        exact Or.inl rfl
      · rw [upd_other _ _ e]
        exact h.data j hj
    · exact fun k' c' _ => h.fresh k' c' (by simp)
    · intro k' c' j hx hk' hp'
      have hne : j ≠ i := by
        rintro rfl
        exact hx (by rw [h.maker k' k c' c j hk' hk hp' hp])
      show j < s.next ∧ upd s.data i _ j = [] ∧ _
      rw [upd_other _ _ hne]
      exact h.made k' c' j (by simp) hk' hp'
    · intro j hj he
      replace he : upd s.data i (labelFile .newEmpty) j = [] := he
      have hne : j ≠ i := by
        rintro rfl
        rw [upd_same] at he
        exact absurd he (by decide)
      rw [upd_other _ _ hne] at he
      obtain ⟨k', c', h3, h4, h5⟩ := h.empty j hj he
      refine ⟨k', c', ?_, h4, h5⟩
      intro hc
      cases hc
      rw [hp] at h5
      cases h5
      exact hne rfl
  · intro e' he' hid
    rw [event_inj h.lin.once he' m4 (hid.trans m5.symm), m6]

theorem Inv.unlinkStep (h : Inv s g G none) {k : Nat} {c : LabelCall L LayerName} {n : L}
    (hk : s.calls k = some c) (hp : s.phase k = .begun) (ho : c.op = .delete n) :
    ∃ g' G', Inv ({ s with dir := upd s.dir n none }.answer k c (.deleted (s.dir n).isSome))
      g' G' none := by
  have hnd : s.phase k ≠ .done := by rw [hp]; simp
  have hnm : ∀ i, s.phase k ≠ .made i := by rw [hp]; simp
  cases hn : s.dir n with
  | none =>
    have e1 : upd s.dir n none = s.dir := by
      funext j
      by_cases e : j = n
      · rw [e, upd_same, hn]
      · rw [upd_other _ _ e]
    rw [e1]
    obtain ⟨G', h'⟩ := h.idleAnswer (r := .deleted false) hk hnd hnm (by
      rw [ho]
      simp only [callOn, h.gone n hn, Option.isSome_none]
      rw [put_self _ n (h.gone n hn)])
    exact ⟨g, G', h'⟩
  | some i =>
    obtain ⟨a1, a2, a3⟩ := h.inode n i hn
    have hfr := h.fresh k c (by simp) hk hnm hnd
    have hans := h.unanswered k c hk hnd
    have hce : callOn sameLabel (after G) (.delete n) = (.deleted true, (after G).put n none) := by
      simp only [callOn, a3, Option.isSome_some]
    have hafter : after (G ++ [⟨k, s.now, .delete n, .deleted true⟩]) = (after G).put n none := by
      rw [Spec.labelsAfter, stored_append]
      exact congrArg Prod.snd hce
    have hkill : ∀ j, j < s.next → s.dir (g.owner j) ≠ some j → g.killer j ≠ k := by
      intro j hj hd hc
      obtain ⟨A, d, B, d1, d2, d3, _⟩ := h.dead j hj hd
      exact hfr d (by rw [d1]; simp) (d3.trans hc)
    have hdead : ∀ j, j ≠ i → upd s.dir n none (g.owner j) ≠ some j →
        s.dir (g.owner j) ≠ some j := by
      intro j hj hc h2
      by_cases e : g.owner j = n
      · rw [e, hn] at h2
        exact hj (Option.some.inj h2).symm
      · rw [upd_other _ _ e] at hc
        exact hc h2
    refine ⟨{ g with killer := upd g.killer i k }, G ++ [⟨k, s.now, .delete n, .deleted true⟩], ?_⟩
    refine Inv.finish (s := { s with dir := upd s.dir n none }) ?_ hk _
      (fun _ => ⟨_, List.mem_append_right _ (List.mem_singleton.2 rfl), rfl⟩) ?_
      (fun hc => by cases hc)
    · refine ⟨?_, ?_, h.begun, ?_, ?_, ?_, ?_, h.data, h.version, h.setVersion, h.opened, ?_,
        h.unanswered, ?_, h.maker, (h.weaken hnm).empty, h.ended, h.unread⟩
      · exact h.lin.snoc (e := ⟨k, s.now, .delete n, .deleted true⟩) hk hans ho (h.begun k c hk) hfr
          h.past (congrArg Prod.fst hce).symm
      · intro e he
        rw [List.mem_append, List.mem_singleton] at he
        rcases he with he | rfl
        · exact h.past e he
        · exact Nat.le_refl _
      · intro m j hm
        replace hm : upd s.dir n none m = some j := hm
        have e : m ≠ n := by
          rintro rfl
          rw [upd_same] at hm
          cases hm
        rw [upd_other _ _ e] at hm
        rw [hafter, put_other _ _ e]
        exact h.inode m j hm
      · intro m hm
        replace hm : upd s.dir n none m = none := hm
        rw [hafter]
        by_cases e : m = n
        · rw [e, put_same]
        · rw [upd_other _ _ e] at hm
          rw [put_other _ _ e]
          exact h.gone m hm
      · intro j hj hd
        replace hd : upd s.dir n none (g.owner j) ≠ some j := hd
        by_cases e : j = i
        · subst e
          refine ⟨G, ⟨k, s.now, .delete n, .deleted true⟩, [], rfl, ?_, ?_, ?_, ?_⟩
          · show LabelOp.delete n = .delete (g.owner j)
            rw [a2]
          · show k = upd g.killer j k j
            rw [upd_same]
          · show after G (g.owner j) = _
            rw [a2]
            exact a3
          · intro k' c' hk' _
            exact h.begun k' c' hk'
        · obtain ⟨A, d, B, d1, d2, d3, d4, d5⟩ := h.dead j hj (hdead j e hd)
          refine ⟨A, d, B ++ [⟨k, s.now, .delete n, .deleted true⟩], by simp [d1], d2, ?_, d4, d5⟩
          show d.id = upd g.killer i k j
          rw [upd_other _ _ e]
          exact d3
      · intro j j' hj hj' hd hd' hkk
        replace hd : upd s.dir n none (g.owner j) ≠ some j := hd
        replace hd' : upd s.dir n none (g.owner j') ≠ some j' := hd'
        replace hkk : upd g.killer i k j = upd g.killer i k j' := hkk
        by_cases e : j = i
        · by_cases e' : j' = i
          · rw [e, e']
          · rw [e, upd_same, upd_other _ _ e'] at hkk
            exact absurd hkk.symm (hkill j' hj' (hdead j' e' hd'))
        · by_cases e' : j' = i
          · rw [e', upd_same, upd_other _ _ e] at hkk
            exact absurd hkk (hkill j hj (hdead j e hd))
          · rw [upd_other _ _ e, upd_other _ _ e'] at hkk
            exact h.killers j j' hj hj' (hdead j e hd) (hdead j' e' hd') hkk
      · intro k' c' hx h1 h2 h3 e he
        rw [List.mem_append, List.mem_singleton] at he
        rcases he with he | rfl
        · exact h.fresh k' c' (by simp) h1 h2 h3 e he
        · exact fun h => hx (by rw [← h])
      · intro k' c' j _ hk' hp'
        obtain ⟨m1, m2, m3, m0, e, m4, m5⟩ := h.made k' c' j (by simp) hk' hp'
        exact ⟨m1, m2, m3, m0, e, List.mem_append_left _ m4, m5⟩
    · intro e he hid
      rw [List.mem_append, List.mem_singleton] at he
      rcases he with he | rfl
      · exact absurd hid (hfr e he)
      · rfl

theorem Step.inv {s' : DirLabels L} (hst : Step s s') (h : Inv s g G none) :
    ∃ g' G', Inv s' g' G' none := by
  cases hst with
  | start hi hv => exact ⟨_, _, h.begin hi hv⟩
  | openFile hi hp ho hd => exact ⟨_, _, h.move hi hp (Or.inr ⟨_, rfl, hd⟩)⟩
  | @getMissing i c n hi hp ho hd =>
    obtain ⟨G', h'⟩ := h.idleAnswer (r := .got none) hi (by rw [hp]; simp) (by rw [hp]; simp) (by
      rw [ho]
      simp only [callOn, h.gone n hd])
    exact ⟨_, _, h'⟩
  | read hi hp ho => exact h.readStep hi hp ho
  | @setMissing i c n old layer hi hp ho hd =>
    obtain ⟨G', h'⟩ := h.idleAnswer (r := .missing) hi (by rw [hp]; simp) (by rw [hp]; simp) (by
      rw [ho]
      simp only [callOn, h.gone n hd])
    exact ⟨_, _, h'⟩
  | write hi hp ho => exact h.writeStep hi hp ho
  | check hi hp ho hd => exact ⟨_, _, h.move hi hp (Or.inl rfl)⟩
  | @createExists i inode c n hi hp ho hd =>
    obtain ⟨G', h'⟩ := h.idleAnswer (r := .exists) hi
      (by rcases hp with hp | hp <;> rw [hp] <;> simp)
      (by rcases hp with hp | hp <;> rw [hp] <;> simp) (by
      rw [ho]
      simp only [callOn, (h.inode n inode hd).2.2])
    exact ⟨_, _, h'⟩
  | make hi hp ho hd => exact h.makeStep hi hp ho hd
  | fill hi hp ho => exact h.fillStep hi hp
  | unlink hi hp ho => exact h.unlinkStep hi hp ho

theorem Run.inv [Inhabited L] (hs : Run s) : ∃ g G, Inv s g G none := by
  induction hs with
  | start => exact ⟨_, _, Inv.init⟩
  | step _ hst ih =>
    obtain ⟨g, G, h⟩ := ih
    exact hst.inv h

end DirLabels

end Verif
