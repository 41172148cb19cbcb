import Verif.Lemmas.LabelSpec
import Verif.Model.LabelStore
import Verif.Lemmas.Text

/-!
Stores whose calls are atomic: each execution is a list of events.
-/

namespace Verif

open Spec

set_option linter.unusedSectionVars false

variable {L N : Type} [DecidableEq L]

theorem putCall_same (h : LabelHistory L N) (i : Nat) (c : LabelCall L N) :
    putCall h i c i = some c := by
  simp [putCall]

theorem putCall_other (h : LabelHistory L N) {i k : Nat} (c : LabelCall L N) (hk : k ≠ i) :
    putCall h i c k = h k := by
  simp [putCall, hk]

/-- The empty history. -/
theorem Spec.LinearizedBy.empty (same : LabelData N → LabelData N → Bool) :
    LinearizedBy (L := L) same (fun _ => none) [] :=
  ⟨trivial, List.Pairwise.nil, List.Pairwise.nil, (by simp), (by simp)⟩

/-- A new call. -/
theorem Spec.LinearizedBy.start {same : LabelData N → LabelData N → Bool} {h : LabelHistory L N}
    {G : List (LabelEvent L N)} (hG : LinearizedBy same h G) {i : Nat} (hi : h i = none)
    (op : LabelOp L N) (t : Nat) : LinearizedBy same (putCall h i ⟨op, t, none⟩) G := by
  refine ⟨hG.answered, hG.sorted, hG.once, ?_, ?_⟩
  · intro k c r u hk ha hr
    by_cases e : k = i
    · subst e
      rw [putCall_same] at hk
      cases hk
      cases ha
    · rw [putCall_other _ _ e] at hk
      exact hG.complete k c r u hk ha hr
  · intro e he
    obtain ⟨c, h1, h2⟩ := hG.sound e he
    have : e.id ≠ i := by
      intro hc
      rw [hc, hi] at h1
      cases h1
    exact ⟨c, by rw [putCall_other _ _ this]; exact h1, h2⟩

/-- A call that has an event, or whose label was unreadable, returns. -/
theorem Spec.LinearizedBy.finish {same : LabelData N → LabelData N → Bool} {h : LabelHistory L N}
    {G : List (LabelEvent L N)} (hG : LinearizedBy same h G) {i : Nat} {c : LabelCall L N}
    (hi : h i = some c) (r : LabelRes N) (t : Nat)
    (hr : r ≠ .unreadable → ∃ e ∈ G, e.id = i)
    (hs : ∀ e ∈ G, e.id = i → r = e.res ∧ e.time ≤ t) :
    LinearizedBy same (putCall h i { c with answer := some (r, t) }) G := by
  refine ⟨hG.answered, hG.sorted, hG.once, ?_, ?_⟩
  · intro k c' r' u hk ha hr'
    by_cases e : k = i
    · subst e
      rw [putCall_same] at hk
      cases hk
      cases ha
      exact hr hr'
    · rw [putCall_other _ _ e] at hk
      exact hG.complete k c' r' u hk ha hr'
  · intro e he
    obtain ⟨c', h1, h2, h3, h4⟩ := hG.sound e he
    by_cases hc : e.id = i
    · rw [hc] at h1
      rw [hi] at h1
      cases h1
      refine ⟨{ c with answer := some (r, t) }, by rw [hc]; exact putCall_same _ _ _, h2, h3, ?_⟩
      intro r' t' ha
      cases ha
      exact hs e he hc
    · exact ⟨c', by rw [putCall_other _ _ hc]; exact h1, h2, h3, h4⟩

/-- A call that is not answered takes effect now. -/
theorem Spec.LinearizedBy.snoc {same : LabelData N → LabelData N → Bool} {h : LabelHistory L N}
    {G : List (LabelEvent L N)} (hG : LinearizedBy same h G) {e : LabelEvent L N}
    {c : LabelCall L N} (hc : h e.id = some c) (ha : c.answer = none) (ho : c.op = e.op)
    (ht : c.start ≤ e.time) (hid : ∀ x ∈ G, x.id ≠ e.id) (htime : ∀ x ∈ G, x.time ≤ e.time)
    (hres : e.res = (callOn same (stored same (fun _ => none) G) e.op).1) :
    LinearizedBy same h (G ++ [e]) := by
  refine ⟨?_, ?_, ?_, ?_, ?_⟩
  · rw [answered_append]
    exact ⟨hG.answered, hres, trivial⟩
  · rw [List.pairwise_append]
    refine ⟨hG.sorted, List.pairwise_singleton _ _, ?_⟩
    intro x hx y hy
    rw [List.mem_singleton] at hy
    subst hy
    exact htime x hx
  · rw [List.pairwise_append]
    refine ⟨hG.once, List.pairwise_singleton _ _, ?_⟩
    intro x hx y hy
    rw [List.mem_singleton] at hy
    subst hy
    exact hid x hx
  · intro i c' r t hi ha' hr
    obtain ⟨x, hx, hxi⟩ := hG.complete i c' r t hi ha' hr
    exact ⟨x, by simp [hx], hxi⟩
  · intro x hx
    rw [List.mem_append, List.mem_singleton] at hx
    rcases hx with hx | rfl
    · exact hG.sound x hx
    · exact ⟨c, hc, ho, ht, fun r t h => by rw [ha] at h; cases h⟩

/-- A store with atomic calls that does what the map does. -/
structure Atomic {σ : Type} (call : σ → LabelOp L N → LabelRes N × σ)
    (same : LabelData N → LabelData N → Bool) (ok : σ → Prop) (map : σ → Labels L N) : Prop where
  res : ∀ s op, ok s → (call s op).1 = (callOn same (map s) op).1
  state : ∀ s op, ok s → map (call s op).2 = (callOn same (map s) op).2
  keep : ∀ s op, ok s → ok (call s op).2

/-- What holds in all executions of such a store. -/
structure SharedInv {σ : Type} (same : LabelData N → LabelData N → Bool) (ok : σ → Prop)
    (map : σ → Labels L N) (s : Shared σ L N) (G : List (LabelEvent L N)) : Prop where
  ok : ok s.state
  lin : LinearizedBy same s.calls G
  state : stored same (fun _ => none) G = map s.state
  past : ∀ e ∈ G, e.time < s.now
  begun : ∀ i c, s.calls i = some c → c.start < s.now
  fresh : ∀ i c, s.calls i = some c → c.answer = none → ∀ e ∈ G, e.id ≠ i
  readable : ∀ i c r t, s.calls i = some c → c.answer = some (r, t) → r ≠ .unreadable

theorem Shared.Run.inv {σ : Type} {call : σ → LabelOp L N → LabelRes N × σ}
    {same : LabelData N → LabelData N → Bool} {ok : σ → Prop} {map : σ → Labels L N} {init : σ}
    (ha : Atomic call same ok map) (h0 : ok init) (h1 : map init = fun _ => none)
    {s : Shared σ L N} (hs : Shared.Run call init s) : ∃ G, SharedInv same ok map s G := by
  induction hs with
  | start =>
    exact ⟨[], h0, LinearizedBy.empty same, h1.symm, (by simp), (by simp), (by simp), (by simp)⟩
  | @step s s' _ hst ih =>
    obtain ⟨G, inv⟩ := ih
    cases hst with
    | @start i op hi =>
      refine ⟨G, inv.ok, inv.lin.start hi op _, inv.state, ?_, ?_, ?_, ?_⟩
      · intro e he
        have := inv.past e he
        show e.time < s.now + 1
        omega
      · intro k c hk
        dsimp only at hk
        show c.start < s.now + 1
        by_cases e : k = i
        · subst e
          rw [putCall_same] at hk
          cases hk
          exact Nat.lt_succ_self _
        · rw [putCall_other _ _ e] at hk
          have := inv.begun k c hk
          omega
      · intro k c hk hc e he
        dsimp only at hk
        by_cases e' : k = i
        · subst e'
          obtain ⟨c', h2, _⟩ := inv.lin.sound e he
          intro h3
          rw [h3, hi] at h2
          cases h2
        · rw [putCall_other _ _ e'] at hk
          exact inv.fresh k c hk hc e he
      · intro k c r t hk hc
        dsimp only at hk
        by_cases e : k = i
        · subst e
          rw [putCall_same] at hk
          cases hk
          cases hc
        · rw [putCall_other _ _ e] at hk
          exact inv.readable k c r t hk hc
    | @work i c hi hc =>
      have fr := inv.fresh i c hi hc
      have hlin := inv.lin.snoc (e := ⟨i, s.now, c.op, (call s.state c.op).1⟩) hi hc rfl
        (Nat.le_of_lt (inv.begun i c hi)) fr (fun x hx => Nat.le_of_lt (inv.past x hx))
        (by rw [inv.state]; exact ha.res s.state c.op inv.ok)
      refine ⟨_, ha.keep _ _ inv.ok, hlin.finish hi _ s.now ?_ ?_, ?_, ?_, ?_, ?_, ?_⟩
      · intro _
        exact ⟨_, List.mem_append_right _ (List.mem_singleton.2 rfl), rfl⟩
      · intro e he hei
        rw [List.mem_append, List.mem_singleton] at he
        rcases he with he | rfl
        · exact absurd hei (fr e he)
        · exact ⟨rfl, Nat.le_refl _⟩
      · rw [stored_append, inv.state]
        exact (ha.state s.state c.op inv.ok).symm
      · intro e he
        show e.time < s.now + 1
        rw [List.mem_append, List.mem_singleton] at he
        rcases he with he | rfl
        · have := inv.past e he
          omega
        · exact Nat.lt_succ_self _
      · intro k c' hk
        dsimp only at hk
        show c'.start < s.now + 1
        by_cases e : k = i
        · subst e
          rw [putCall_same] at hk
          cases hk
          have := inv.begun k c hi
          show c.start < s.now + 1
          omega
        · rw [putCall_other _ _ e] at hk
          have := inv.begun k c' hk
          omega
      · intro k c' hk hc' e he
        dsimp only at hk
        by_cases e' : k = i
        · subst e'
          rw [putCall_same] at hk
          cases hk
          cases hc'
        · rw [putCall_other _ _ e'] at hk
          rw [List.mem_append, List.mem_singleton] at he
          rcases he with he | rfl
          · exact inv.fresh k c' hk hc' e he
          · exact fun h => e' h.symm
      · intro k c' r t hk hc'
        dsimp only at hk
        by_cases e : k = i
        · subst e
          rw [putCall_same] at hk
          cases hk
          cases hc'
          rw [ha.res _ _ inv.ok]
          exact callOn_readable _ _
        · rw [putCall_other _ _ e] at hk
          exact inv.readable k c' r t hk hc'

/-! ### Hash maps -/

namespace LabelMap

theorem get?_remove (m : LabelMap L N) (n k : L) :
    (m.remove n).get? k = if k = n then none else m.get? k := by
  induction m with
  | nil => simp [remove, get?]
  | cons q m ih =>
    obtain ⟨a, v⟩ := q
    simp only [remove] at ih ⊢
    by_cases h : a = n
    · rw [List.filter_cons_of_neg (by simpa using h), ih]
      subst h
      by_cases hk : k = a
      · simp [hk]
      · rw [if_neg hk, if_neg hk, get?, if_neg (fun h => hk h.symm)]
    · rw [List.filter_cons_of_pos (by simpa using h)]
      simp only [get?]
      rw [ih]
      by_cases hk : a = k
      · subst hk
        simp [h]
      · simp [hk]

theorem get?_insert (m : LabelMap L N) (n k : L) (l : LabelData N) :
    (m.insert n l).get? k = if k = n then some l else m.get? k := by
  simp only [insert, get?, get?_remove]
  by_cases h : n = k
  · simp [h]
  · rw [if_neg h, if_neg (fun h' => h h'.symm), if_neg (fun h' => h h'.symm)]

theorem get?_fun_insert (m : LabelMap L N) (n : L) (l : LabelData N) :
    (m.insert n l).get? = Labels.put m.get? n (some l) := by
  funext k
  rw [get?_insert]
  rfl

theorem get?_fun_remove (m : LabelMap L N) (n : L) :
    (m.remove n).get? = Labels.put m.get? n none := by
  funext k
  rw [get?_remove]
  rfl

/-- The keys are distinct. -/
def Keys (m : LabelMap L N) : Prop := m.Pairwise (fun a b => a.1 ≠ b.1)

theorem Keys.remove {m : LabelMap L N} (h : m.Keys) (n : L) : (m.remove n).Keys :=
  List.Pairwise.filter _ h

theorem Keys.insert {m : LabelMap L N} (h : m.Keys) (n : L) (l : LabelData N) :
    (m.insert n l).Keys := by
  refine List.Pairwise.cons ?_ (h.remove n)
  intro q hq
  have := (List.mem_filter.1 hq).2
  simp only [decide_eq_true_eq] at this
  exact fun h => this h.symm

theorem Keys.mem_iff {m : LabelMap L N} (h : m.Keys) (n : L) (l : LabelData N) :
    (n, l) ∈ m ↔ m.get? n = some l := by
  induction m with
  | nil => simp [get?]
  | cons q m ih =>
    obtain ⟨a, v⟩ := q
    have h' := List.pairwise_cons.1 h
    simp only [get?, List.mem_cons, Prod.mk.injEq]
    by_cases e : a = n
    · subst e
      rw [if_pos rfl]
      constructor
      · rintro (⟨_, hv⟩ | hm)
        · rw [hv]
        · exact absurd rfl (h'.1 (a, l) hm)
      · intro hv
        cases hv
        exact Or.inl ⟨rfl, rfl⟩
    · rw [if_neg e, ← ih h'.2]
      constructor
      · rintro (⟨rfl, _⟩ | hm)
        · exact absurd rfl e
        · exact hm
      · exact Or.inr

end LabelMap

/-! ### The store in memory -/


theorem MemoryLabels.atomic :
    Atomic (L := L) (N := N) MemoryLabels.call sameVersion LabelMap.Keys LabelMap.get? := by
  refine ⟨?_, ?_, ?_⟩
  · intro m op _
    cases op with
    | create n =>
      simp only [MemoryLabels.call, MemoryLabels.create, callOn]
      cases h : m.get? n <;> rfl
    | get n => rfl
    | set n old layer =>
      simp only [MemoryLabels.call, MemoryLabels.set, callOn]
      cases h : m.get? n with
      | none => rfl
      | some cur =>
        by_cases e : cur.version = old.version
        · simp [sameVersion, e, LabelData.withUpdatedLayer, updated]
        · simp [sameVersion, e, LabelData.withUpdatedLayer]
    | delete n => rfl
  · intro m op _
    cases op with
    | create n =>
      simp only [MemoryLabels.call, MemoryLabels.create, callOn]
      cases h : m.get? n with
      | none => exact LabelMap.get?_fun_insert _ _ _
      | some l => rfl
    | get n => rfl
    | set n old layer =>
      simp only [MemoryLabels.call, MemoryLabels.set, callOn]
      cases h : m.get? n with
      | none => rfl
      | some cur =>
        by_cases e : cur.version = old.version
        · simp [sameVersion, e, LabelData.withUpdatedLayer, updated, LabelMap.get?_fun_insert]
        · simp [sameVersion, e, LabelData.withUpdatedLayer]
    | delete n => exact LabelMap.get?_fun_remove _ _
  · intro m op hm
    cases op with
    | create n =>
      simp only [MemoryLabels.call, MemoryLabels.create]
      split
      · exact hm
      · exact hm.insert _ _
    | get n => exact hm
    | set n old layer =>
      simp only [MemoryLabels.call, MemoryLabels.set]
      split
      · exact hm
      · split
        · exact hm
        · exact hm.insert _ _
    | delete n => exact hm.remove n

/-! ### The cached directory store -/


/-- Exactly the labels in the map have files. -/
def CachedLabels.Ok (s : CachedLabels L) : Prop :=
  s.map.Keys ∧ ∀ n, (s.files n).isSome = (s.map.get? n).isSome

/-- The calls on labels on disk, as `Verif/Model/Api.lean` has them, do what the files of
`CachedLabels` and `DirLabels` do. -/
theorem DiskLabels.atomic [DecidableEq N] :
    Atomic (L := L) (N := N) DiskLabels.call sameLabel LabelMap.Keys LabelMap.get? := by
  have other : ∀ (m : LabelMap L N) (op : LabelOp L N), (∀ n old layer, op ≠ .set n old layer) →
      DiskLabels.call m op = MemoryLabels.call m op ∧
      callOn sameLabel m.get? op = callOn sameVersion m.get? op := by
    intro m op h
    cases op with
    | set n old layer => exact (h n old layer rfl).elim
    | _ => exact ⟨rfl, rfl⟩
  have isSet : ∀ op : LabelOp L N, (∃ n old layer, op = .set n old layer) ∨
      ∀ n old layer, op ≠ .set n old layer := by
    intro op
    cases op with
    | set n old layer => exact .inl ⟨n, old, layer, rfl⟩
    | _ => exact .inr (by intros; simp)
  refine ⟨?_, ?_, ?_⟩
  · intro m op hm
    rcases isSet op with ⟨n, old, layer, rfl⟩ | h
    · simp only [DiskLabels.call, DiskLabels.set, callOn]
      cases h : m.get? n with
      | none => rfl
      | some cur =>
        by_cases e : cur = old
        · simp [sameLabel, e, LabelData.withUpdatedLayer, updated]
        · simp [sameLabel, e]
    · rw [(other m op h).1, (other m op h).2]
      exact MemoryLabels.atomic.res m op hm
  · intro m op hm
    rcases isSet op with ⟨n, old, layer, rfl⟩ | h
    · simp only [DiskLabels.call, DiskLabels.set, callOn]
      cases h : m.get? n with
      | none => rfl
      | some cur =>
        by_cases e : cur = old
        · simp only [sameLabel, e, if_true, decide_true]
          exact LabelMap.get?_fun_insert _ _ _
        · simp [sameLabel, e]
    · rw [(other m op h).1, (other m op h).2]
      exact MemoryLabels.atomic.state m op hm
  · intro m op hm
    rcases isSet op with ⟨n, old, layer, rfl⟩ | h
    · simp only [DiskLabels.call, DiskLabels.set]
      cases h : m.get? n with
      | none => exact hm
      | some cur =>
        by_cases e : cur = old
        · simp only [e, if_true]; exact hm.insert _ _
        · simp only [e, if_false]; exact hm
    · rw [(other m op h).1]
      exact MemoryLabels.atomic.keep m op hm

theorem CachedLabels.atomic :
    Atomic (L := L) CachedLabels.call sameLabel CachedLabels.Ok (fun s => s.map.get?) := by
  refine ⟨?_, ?_, ?_⟩
  · intro s op hs
    cases op with
    | create n =>
      simp only [CachedLabels.call, CachedLabels.create, callOn]
      have := hs.2 n
      cases h : s.map.get? n <;> cases h' : s.files n <;> simp [h, h'] at this ⊢
    | get n => rfl
    | set n old layer =>
      simp only [CachedLabels.call, CachedLabels.set, callOn]
      have := hs.2 n
      cases h : s.map.get? n with
      | none => rfl
      | some cur =>
        by_cases e : cur = old
        · cases h' : s.files n with
          | none => simp [h, h'] at this
          | some b => simp [sameLabel, e, LabelData.withUpdatedLayer, updated]
        · simp [sameLabel, e]
    | delete n =>
      simp only [CachedLabels.call, CachedLabels.delete, callOn]
      have := hs.2 n
      cases h : s.map.get? n with
      | none => rfl
      | some cur =>
        cases h' : s.files n with
        | none => simp [h, h'] at this
        | some b => rfl
  · intro s op hs
    cases op with
    | create n =>
      simp only [CachedLabels.call, CachedLabels.create, callOn]
      have := hs.2 n
      cases h : s.map.get? n with
      | some l => rfl
      | none =>
        cases h' : s.files n with
        | some b => simp [h, h'] at this
        | none => exact LabelMap.get?_fun_insert _ _ _
    | get n => rfl
    | set n old layer =>
      simp only [CachedLabels.call, CachedLabels.set, callOn]
      have := hs.2 n
      cases h : s.map.get? n with
      | none => rfl
      | some cur =>
        by_cases e : cur = old
        · cases h' : s.files n with
          | none => simp [h, h'] at this
          | some b =>
            simp [sameLabel, e, LabelData.withUpdatedLayer, updated, LabelMap.get?_fun_insert]
        · simp [sameLabel, e]
    | delete n =>
      simp only [CachedLabels.call, CachedLabels.delete, callOn]
      have := hs.2 n
      cases h : s.map.get? n with
      | none => exact (put_self _ n h).symm
      | some cur =>
        cases h' : s.files n with
        | none => simp [h, h'] at this
        | some b => exact LabelMap.get?_fun_remove _ _
  · intro s op hs
    have hput : ∀ (n : L) (l : LabelData LayerName) (b : Bytes),
        CachedLabels.Ok ⟨s.map.insert n l, CachedLabels.putFile s.files n (some b)⟩ := by
      intro n l b
      refine ⟨hs.1.insert n l, fun k => ?_⟩
      simp only [CachedLabels.putFile, LabelMap.get?_insert]
      by_cases e : k = n
      · simp [e]
      · simp [e, hs.2 k]
    cases op with
    | create n =>
      simp only [CachedLabels.call, CachedLabels.create]
      split
      · exact hs
      · split
        · exact hs
        · exact hput _ _ _
    | get n => exact hs
    | set n old layer =>
      simp only [CachedLabels.call, CachedLabels.set]
      split
      · exact hs
      · split
        · split
          · exact hs
          · exact hput _ _ _
        · exact hs
    | delete n =>
      simp only [CachedLabels.call, CachedLabels.delete]
      have := hs.2 n
      cases h : s.map.get? n with
      | none => exact hs
      | some cur =>
        cases h' : s.files n with
        | none => simp [h, h'] at this
        | some b =>
          refine ⟨hs.1.remove n, fun k => ?_⟩
          simp only [CachedLabels.putFile, LabelMap.get?_remove]
          by_cases e : k = n
          · simp [e]
          · simp [e, hs.2 k]

end Verif
