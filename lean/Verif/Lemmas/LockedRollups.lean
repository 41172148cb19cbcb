import Verif.Model.LockedRollups
import Verif.Lemmas.Linear
import Verif.Lemmas.LockedSteps
import Verif.Lemmas.ArchiveRollup

/-!
The rollup files of an archive store under file locks: what holds in all states that can be
reached.
-/

namespace Verif

open Spec

namespace LockedRollups

open LockedLabels (writeAt readAt)

theorem upd_same {α β : Type} [DecidableEq α] (f : α → β) (a : α) (b : β) : upd f a b a = b := by
  simp [upd]

theorem upd_other {α β : Type} [DecidableEq α] (f : α → β) {a x : α} (b : β) (h : x ≠ a) :
    upd f a b x = f x := by
  simp [upd, h]

theorem result_data (r : LayerName) : result (data r) = .got (some r) := by
  unfold result data
  have h1 : ArchDir.secondLine (utf8Lossy ([49, 10] ++ nameToString r ++ [10])) =
      .ok (nameToString r) := by
    unfold ArchDir.secondLine
    rw [ArchStore.lines_rollup]
    rfl
  rw [h1]
  have h2 := stringToName_nameToString r
  generalize nameToString r = t at h2
  have : (Out.ok t).bind stringToName = .ok r := h2
  rw [this]

theorem data_length (r : LayerName) : (data r).length = 43 := by
  simp [data, nameToString_length]

abbrev Eff := Effect (RollupOp LayerName) (RollupRes LayerName)
abbrev TC := TimedCall (RollupOp LayerName) (RollupRes LayerName)

/-- The registry after some calls. -/
abbrev reg (G : List Eff) : LayerName → Option (Option LayerName) :=
  stateAfter rollupCall (fun _ => none) G

/-- The lock that a call has once it waits no longer. -/
def Has (s : LockedRollups) (i : Nat) : RollupOp LayerName → Prop
  | .store _ => False
  | .get n => i ∈ s.shared n
  | .set n _ => s.exclusive n = some i

/-- What a call has done, as far as it is. -/
def CallOk (s : LockedRollups) (G : List Eff) (i : Nat) (c : TC) : Prop :=
  match s.phase i with
  | .begun => c.answer = none ∧ (∀ e ∈ G, e.id ≠ i)
  | .waiting => c.answer = none ∧ (∀ e ∈ G, e.id ≠ i) ∧ s.layer c.op.name = true ∧
      ∀ n, c.op ≠ .store n
  | .opening => c.answer = none ∧ (∀ e ∈ G, e.id ≠ i) ∧ s.layer c.op.name = true ∧ s.Has i c.op
  | .reading got => c.answer = none ∧ (∀ e ∈ G, e.id ≠ i) ∧ s.layer c.op.name = true ∧
      s.Has i c.op ∧ ∃ n, c.op = .get n ∧ ∃ b, s.file n = some b ∧ got <+: b
  | .writing pos rest => c.answer = none ∧ (∀ e ∈ G, e.id ≠ i) ∧ s.layer c.op.name = true ∧
      s.Has i c.op ∧ ∃ n r, c.op = .set n r ∧ pos ≤ (data r).length ∧
        s.file n = some ((data r).take pos) ∧ rest = (data r).drop pos
  | .unlocking r => c.answer = none ∧ (∃ e ∈ G, e.id = i ∧ e.res = r) ∧ s.Has i c.op
  | .returning r => c.answer = none ∧ (∃ e ∈ G, e.id = i ∧ e.res = r)
  | .done => c.answer ≠ none
  | .dropped => c.answer = none

/-- A call in this phase has its lock. -/
def Phase.holds : Phase → Bool
  | .opening | .reading _ | .writing _ _ | .unlocking _ => true
  | _ => false

/-- What holds in all states. -/
structure Inv (s : LockedRollups) (G : List Eff) : Prop where
  lin : RollupsLinearized s.calls G
  past : ∀ e ∈ G, e.time < s.now
  starts : ∀ i c, s.calls i = some c → c.start ≤ s.now
  calls : ∀ i c, s.calls i = some c → CallOk s G i c
  exclusive : ∀ n i, s.exclusive n = some i → (s.phase i).holds = true ∧
    ∃ c r, s.calls i = some c ∧ c.op = .set n r
  shared : ∀ n i, i ∈ s.shared n → (s.phase i).holds = true ∧ ∃ c, s.calls i = some c ∧
    c.op = .get n
  alone : ∀ n, s.exclusive n ≠ none → s.shared n = []
  layers : ∀ n, s.layer n = (reg G n).isSome
  files : ∀ n, (∀ i pos rest, s.exclusive n = some i → s.phase i ≠ .writing pos rest) →
    s.file n = ((reg G n).getD none).map data

theorem Inv.start : Inv {} [] := by
  refine ⟨Linearized.empty, ?_, ?_, ?_, ?_, ?_, ?_, ?_, ?_⟩
  · intro e h; cases h
  · intro i c h; cases h
  · intro i c h; cases h
  · intro n i h; cases h
  · intro n i h; cases h
  · intro n h; rfl
  · intro n; rfl
  · intro n h; rfl

/-- What other calls know stays true. -/
theorem CallOk.frame {s s' : LockedRollups} {G G' : List Eff} {j : Nat} {c : TC}
    (h : CallOk s G j c) (hp : s'.phase j = s.phase j)
    (hl : ∀ n, s.layer n = true → s'.layer n = true) (hh : ∀ op, s.Has j op → s'.Has j op)
    (hf : ∀ op, s.Has j op → s'.file op.name = s.file op.name)
    (hG : ∀ e ∈ G, e ∈ G') (hG' : ∀ e ∈ G', e.id = j → e ∈ G) : CallOk s' G' j c := by
  unfold CallOk at *
  rw [hp]
  have ne : (∀ e ∈ G, e.id ≠ j) → ∀ e ∈ G', e.id ≠ j := fun h e he hj => h e (hG' e he hj) hj
  have ex : ∀ r, (∃ e ∈ G, e.id = j ∧ e.res = r) → ∃ e ∈ G', e.id = j ∧ e.res = r :=
    fun r ⟨e, he, h⟩ => ⟨e, hG e he, h⟩
  cases hs : s.phase j with
  | begun => rw [hs] at h; exact ⟨h.1, ne h.2⟩
  | waiting => rw [hs] at h; exact ⟨h.1, ne h.2.1, hl _ h.2.2.1, h.2.2.2⟩
  | opening => rw [hs] at h; exact ⟨h.1, ne h.2.1, hl _ h.2.2.1, hh _ h.2.2.2⟩
  | reading got =>
    rw [hs] at h
    obtain ⟨h1, h2, h3, h4, n, h5, b, h6, h7⟩ := h
    refine ⟨h1, ne h2, hl _ h3, hh _ h4, n, h5, b, ?_, h7⟩
    have := hf _ h4
    rw [h5] at this
    exact this.trans h6
  | writing pos rest =>
    rw [hs] at h
    obtain ⟨h1, h2, h3, h4, n, r, h5, h6, h7, h8⟩ := h
    refine ⟨h1, ne h2, hl _ h3, hh _ h4, n, r, h5, h6, ?_, h8⟩
    have := hf _ h4
    rw [h5] at this
    exact this.trans h7
  | unlocking r => rw [hs] at h; exact ⟨h.1, ex r h.2.1, hh _ h.2.2⟩
  | returning r => rw [hs] at h; exact ⟨h.1, ex r h.2⟩
  | done => rw [hs] at h; exact h
  | dropped => rw [hs] at h; exact h

/-- Two calls do not use a file at the same time if one of them writes. -/
theorem Inv.disjoint {s : LockedRollups} {G : List Eff} (hi : Inv s G) {i j : Nat} {n : LayerName}
    (hx : s.exclusive n = some i) (hij : j ≠ i) (op : RollupOp LayerName) (ho : s.Has j op) :
    op.name ≠ n := by
  rintro rfl
  cases op with
  | store m => exact ho
  | get m =>
    have h1 : j ∈ s.shared m := ho
    rw [hi.alone m (by rw [show s.exclusive m = some i from hx]; exact fun h => by cases h)] at h1
    cases h1
  | set m r =>
    have h1 : s.exclusive m = some j := ho
    rw [show s.exclusive m = some i from hx] at h1
    cases h1
    exact hij rfl

/-- A call goes on without taking effect and without changing files or locks. -/
theorem Inv.move {s : LockedRollups} {G : List Eff} (hi : Inv s G) {i : Nat} {c : TC} {p : Phase}
    (hc : s.calls i = some c) (hok : CallOk (s.goto i p) G i c)
    (hp : (s.phase i).holds = true → p.holds = true)
    (hw : ∀ pos rest, s.phase i ≠ .writing pos rest) : Inv (s.goto i p) G := by
  have other : ∀ j, j ≠ i → (s.goto i p).phase j = s.phase j := fun j hj => upd_other _ _ hj
  have holds : ∀ j, (s.phase j).holds = true → ((s.goto i p).phase j).holds = true := by
    intro j hj
    by_cases e : j = i
    · subst e
      show (upd s.phase j p j).holds = true
      rw [upd_same]
      exact hp hj
    · rw [other j e]; exact hj
  refine ⟨hi.lin, fun e he => Nat.lt_succ_of_lt (hi.past e he),
    fun j d hd => Nat.le_succ_of_le (hi.starts j d hd), ?_, ?_, ?_, hi.alone, hi.layers, ?_⟩
  · intro j d hd
    by_cases e : j = i
    · subst e
      rw [show (s.goto j p).calls = s.calls from rfl, hc] at hd
      cases hd
      exact hok
    · exact (hi.calls j d hd).frame (other j e) (fun _ h => h) (fun op h => by
        cases op <;> exact h) (fun _ _ => rfl) (fun _ h => h) (fun _ h _ => h)
  · intro n j hj
    obtain ⟨h1, h2⟩ := hi.exclusive n j hj
    exact ⟨holds j h1, h2⟩
  · intro n j hj
    obtain ⟨h1, h2⟩ := hi.shared n j hj
    exact ⟨holds j h1, h2⟩
  · intro n hn
    refine hi.files n (fun j pos rest hj => ?_)
    by_cases e : j = i
    · subst e; exact hw pos rest
    · have := hn j pos rest hj
      rw [other j e] at this
      exact this

/-- A call takes effect. -/
theorem Inv.effect {s : LockedRollups} {G : List Eff} (hi : Inv s G) {i : Nat} {c : TC}
    (hc : s.calls i = some c) (ha : c.answer = none) (hn : ∀ e ∈ G, e.id ≠ i) :
    RollupsLinearized s.calls (G ++ [⟨i, s.now, c.op, (rollupCall (reg G) c.op).1⟩]) :=
  hi.lin.snoc (e := ⟨i, s.now, c.op, (rollupCall (reg G) c.op).1⟩) hc ha rfl (hi.starts i c hc) hn
    hi.past rfl

theorem reg_snoc (G : List Eff) (e : Eff) : reg (G ++ [e]) = (rollupCall (reg G) e.op).2 :=
  stateAfter_append _ _ _

/-- A call takes effect and leaves files and locks; the registry of other layers stays. -/
theorem Inv.take {s : LockedRollups} {G : List Eff} (hi : Inv s G) {i : Nat} {c : TC} {p : Phase}
    {layer : LayerName → Bool} {r : RollupRes LayerName}
    (hc : s.calls i = some c) (ha : c.answer = none) (hn : ∀ e ∈ G, e.id ≠ i)
    (hr : (rollupCall (reg G) c.op).1 = r)
    (hp : p = .returning r ∨ p = .unlocking r ∧ s.Has i c.op)
    (hb : (s.phase i).holds = true → p.holds = true)
    (hl : ∀ n, layer n = ((rollupCall (reg G) c.op).2 n).isSome)
    (hlm : ∀ n, s.layer n = true → layer n = true)
    (hf : ∀ n, (∀ j pos rest, s.exclusive n = some j → j ≠ i → s.phase j ≠ .writing pos rest) →
      s.file n = (((rollupCall (reg G) c.op).2 n).getD none).map data) :
    ∃ G', Inv ({ s with layer := layer }.goto i p) G' := by
  refine ⟨G ++ [⟨i, s.now, c.op, r⟩], ?_⟩
  have other : ∀ j, j ≠ i → ({ s with layer := layer }.goto i p).phase j = s.phase j :=
    fun j hj => upd_other _ _ hj
  have holds : ∀ j, (s.phase j).holds = true →
      (({ s with layer := layer }.goto i p).phase j).holds = true := by
    intro j hj
    by_cases e : j = i
    · subst e
      show (upd s.phase j p j).holds = true
      rw [upd_same]
      exact hb hj
    · rw [other j e]; exact hj
  have mem : ∀ e ∈ G ++ [(⟨i, s.now, c.op, r⟩ : Eff)], e ∈ G ∨ e = ⟨i, s.now, c.op, r⟩ := by
    intro e he
    rw [List.mem_append, List.mem_singleton] at he
    exact he
  refine ⟨by rw [← hr]; exact hi.effect hc ha hn, ?_,
    fun j d hd => Nat.le_succ_of_le (hi.starts j d hd), ?_, ?_, ?_, hi.alone, ?_, ?_⟩
  · intro e he
    show _ < s.now + 1
    rcases mem e he with he | rfl
    · exact Nat.lt_succ_of_lt (hi.past e he)
    · exact Nat.lt_succ_self _
  · intro j d hd
    by_cases e : j = i
    · subst e
      have hd' : s.calls j = some d := hd
      rw [hc] at hd'
      cases hd'
      have hm : ∃ e ∈ G ++ [(⟨j, s.now, c.op, r⟩ : Eff)], e.id = j ∧ e.res = r :=
        ⟨_, List.mem_append_right _ (List.mem_singleton.2 rfl), rfl, rfl⟩
      unfold CallOk
      rw [show (goto { s with layer := layer } j p).phase j = p from upd_same s.phase j p]
      rcases hp with rfl | ⟨rfl, hh⟩
      · exact ⟨ha, hm⟩
      · refine ⟨ha, hm, ?_⟩
        cases ho : c.op <;> rw [ho] at hh <;> exact hh
    · refine (hi.calls j d hd).frame (other j e) hlm (fun op h => by cases op <;> exact h)
        (fun _ _ => rfl) (fun _ h => List.mem_append_left _ h) (fun x hx hj => ?_)
      rcases mem x hx with hx | rfl
      · exact hx
      · exact absurd hj.symm e
  · intro n j hj
    obtain ⟨h1, h2⟩ := hi.exclusive n j hj
    exact ⟨holds j h1, h2⟩
  · intro n j hj
    obtain ⟨h1, h2⟩ := hi.shared n j hj
    exact ⟨holds j h1, h2⟩
  · intro n
    rw [reg_snoc]
    exact hl n
  · intro n hn'
    rw [reg_snoc]
    refine hf n (fun j pos rest hj e => ?_)
    have := hn' j pos rest hj
    rw [other j e] at this
    exact this

/-- Nobody can hold a lock and not be in one of the phases where that is so. -/
theorem Inv.not_held {s : LockedRollups} {G : List Eff} (hi : Inv s G) {i : Nat}
    (hp : (s.phase i).holds = false) (n : LayerName) : s.exclusive n ≠ some i ∧ i ∉ s.shared n := by
  constructor
  · intro h
    have := (hi.exclusive n i h).1
    rw [hp] at this
    cases this
  · intro h
    have := (hi.shared n i h).1
    rw [hp] at this
    cases this

theorem mem_filter_ne {l : List Nat} {i j : Nat} :
    j ∈ l.filter (fun k => k ≠ i) ↔ j ∈ l ∧ j ≠ i := by
  simp

/-- A call gives its lock back. -/
theorem Inv.release {s : LockedRollups} {G : List Eff} (hi : Inv s G) {i : Nat} {c : TC}
    {p : Phase} (hc : s.calls i = some c)
    (hok : CallOk ((s.unlock i c.op.name).goto i p) G i c)
    (hw : ∀ pos rest, s.phase i ≠ .writing pos rest) : Inv ((s.unlock i c.op.name).goto i p) G := by
  have other : ∀ j, j ≠ i → ((s.unlock i c.op.name).goto i p).phase j = s.phase j :=
    fun j hj => upd_other _ _ hj
  have ex : ∀ m j, ((s.unlock i c.op.name).goto i p).exclusive m = some j →
      s.exclusive m = some j ∧ j ≠ i := by
    intro m j hj
    replace hj : upd s.exclusive c.op.name
      (if s.exclusive c.op.name = some i then none else s.exclusive c.op.name) m = some j := hj
    by_cases e : m = c.op.name
    · subst e
      rw [upd_same] at hj
      split at hj
      · cases hj
      · rename_i h1
        exact ⟨hj, by rintro rfl; exact h1 hj⟩
    · rw [upd_other _ _ e] at hj
      refine ⟨hj, ?_⟩
      rintro rfl
      obtain ⟨-, d, r, hd, ho⟩ := hi.exclusive m j hj
      rw [hc] at hd
      cases hd
      rw [ho] at e
      exact e rfl
  have sh : ∀ m j, j ∈ ((s.unlock i c.op.name).goto i p).shared m → j ∈ s.shared m ∧ j ≠ i := by
    intro m j hj
    replace hj : j ∈ upd s.shared c.op.name
      ((s.shared c.op.name).filter (fun k => k ≠ i)) m := hj
    by_cases e : m = c.op.name
    · subst e
      rw [upd_same, mem_filter_ne] at hj
      exact hj
    · rw [upd_other _ _ e] at hj
      refine ⟨hj, ?_⟩
      rintro rfl
      obtain ⟨-, d, hd, ho⟩ := hi.shared m j hj
      rw [hc] at hd
      cases hd
      rw [ho] at e
      exact e rfl
  have keepx : ∀ m j, j ≠ i → s.exclusive m = some j →
      ((s.unlock i c.op.name).goto i p).exclusive m = some j := by
    intro m j hj h
    show upd s.exclusive c.op.name _ m = some j
    by_cases e : m = c.op.name
    · subst e
      rw [upd_same, if_neg]
      · exact h
      · rw [h]; exact fun h' => hj (Option.some.inj h')
    · rw [upd_other _ _ e]; exact h
  have keeps : ∀ m j, j ≠ i → j ∈ s.shared m →
      j ∈ ((s.unlock i c.op.name).goto i p).shared m := by
    intro m j hj h
    show j ∈ upd s.shared c.op.name _ m
    by_cases e : m = c.op.name
    · subst e
      rw [upd_same, mem_filter_ne]
      exact ⟨h, hj⟩
    · rw [upd_other _ _ e]; exact h
  refine ⟨hi.lin, fun e he => Nat.lt_succ_of_lt (hi.past e he),
    fun j d hd => Nat.le_succ_of_le (hi.starts j d hd), ?_, ?_, ?_, ?_, hi.layers, ?_⟩
  · intro j d hd
    by_cases e : j = i
    · subst e
      have hd' : s.calls j = some d := hd
      rw [hc] at hd'
      cases hd'
      exact hok
    · refine (hi.calls j d hd).frame (other j e) (fun _ h => h) (fun op h => ?_) (fun _ _ => rfl)
        (fun _ h => h) (fun _ h _ => h)
      cases op with
      | store m => exact h
      | get m => exact keeps m j e h
      | set m r => exact keepx m j e h
  · intro m j hj
    obtain ⟨h1, h2⟩ := ex m j hj
    rw [other j h2]
    exact hi.exclusive m j h1
  · intro m j hj
    obtain ⟨h1, h2⟩ := sh m j hj
    rw [other j h2]
    exact hi.shared m j h1
  · intro m hm
    rw [List.eq_nil_iff_forall_not_mem]
    intro j hj
    have h1 := (sh m j hj).1
    cases hx : ((s.unlock i c.op.name).goto i p).exclusive m with
    | none => exact hm hx
    | some k =>
      have := (ex m k hx).1
      rw [hi.alone m (by rw [this]; exact fun h => by cases h)] at h1
      cases h1
  · intro m hm
    refine hi.files m (fun j pos rest hj => ?_)
    by_cases e : j = i
    · subst e; exact hw pos rest
    · have := hm j pos rest (keepx m j e hj)
      rw [other j e] at this
      exact this

/-- A call that writes changes its file. -/
theorem Inv.write {s : LockedRollups} {G : List Eff} (hi : Inv s G) {i : Nat} {c : TC}
    {n r : LayerName} {b : Bytes} {pos : Nat} {rest : Bytes} (hc : s.calls i = some c)
    (ho : c.op = .set n r) (hx : s.exclusive n = some i)
    (hok : CallOk ((s.putFile n b).goto i (.writing pos rest)) G i c) :
    Inv ((s.putFile n b).goto i (.writing pos rest)) G := by
  have other : ∀ j, j ≠ i → ((s.putFile n b).goto i (.writing pos rest)).phase j = s.phase j :=
    fun j hj => upd_other _ _ hj
  have holds : ∀ j, (s.phase j).holds = true →
      (((s.putFile n b).goto i (.writing pos rest)).phase j).holds = true := by
    intro j hj
    by_cases e : j = i
    · subst e
      show (upd s.phase j (.writing pos rest) j).holds = true
      rw [upd_same]
      rfl
    · rw [other j e]; exact hj
  refine ⟨hi.lin, fun e he => Nat.lt_succ_of_lt (hi.past e he),
    fun j d hd => Nat.le_succ_of_le (hi.starts j d hd), ?_, ?_, ?_, hi.alone, hi.layers, ?_⟩
  · intro j d hd
    by_cases e : j = i
    · subst e
      have hd' : s.calls j = some d := hd
      rw [hc] at hd'
      cases hd'
      exact hok
    · exact (hi.calls j d hd).frame (other j e) (fun _ h => h) (fun op h => by
        cases op <;> exact h) (fun op h => upd_other _ _ (hi.disjoint hx e op h)) (fun _ h => h)
        (fun _ h _ => h)
  · intro m j hj
    obtain ⟨h1, h2⟩ := hi.exclusive m j hj
    exact ⟨holds j h1, h2⟩
  · intro m j hj
    obtain ⟨h1, h2⟩ := hi.shared m j hj
    exact ⟨holds j h1, h2⟩
  · intro m hm
    have e : m ≠ n := by
      rintro rfl
      exact hm i pos rest hx (upd_same _ _ _)
    rw [show ((s.putFile n b).goto i (.writing pos rest)).file m = s.file m from upd_other _ _ e]
    refine hi.files m (fun j pos' rest' hj => ?_)
    have hji : j ≠ i := by
      rintro rfl
      obtain ⟨-, d, r', hd, ho'⟩ := hi.exclusive m j hj
      rw [hc] at hd
      cases hd
      rw [ho] at ho'
      cases ho'
      exact e rfl
    have := hm j pos' rest' hj
    rw [other j hji] at this
    exact this

/-- A call gets the shared lock. -/
theorem Inv.lockS {s : LockedRollups} {G : List Eff} (hi : Inv s G) {i : Nat} {c : TC}
    {n : LayerName} (hc : s.calls i = some c) (ho : c.op = .get n) (hp : s.phase i = .waiting)
    (hx : s.exclusive n = none) : Inv ((s.lockShared i n).goto i .opening) G := by
  have other : ∀ j, j ≠ i → ((s.lockShared i n).goto i .opening).phase j = s.phase j :=
    fun j hj => upd_other _ _ hj
  have hnot := hi.not_held (i := i) (by rw [hp]; rfl)
  have sh : ∀ m j, j ∈ ((s.lockShared i n).goto i .opening).shared m →
      (m = n ∧ j = i) ∨ j ∈ s.shared m := by
    intro m j hj
    replace hj : j ∈ upd s.shared n (i :: s.shared n) m := hj
    by_cases e : m = n
    · subst e
      rw [upd_same, List.mem_cons] at hj
      rcases hj with h | h
      · exact Or.inl ⟨rfl, h⟩
      · exact Or.inr h
    · rw [upd_other _ _ e] at hj
      exact Or.inr hj
  have keeps : ∀ m j, j ∈ s.shared m → j ∈ ((s.lockShared i n).goto i .opening).shared m := by
    intro m j h
    show j ∈ upd s.shared n (i :: s.shared n) m
    by_cases e : m = n
    · subst e
      rw [upd_same]
      exact List.mem_cons_of_mem _ h
    · rw [upd_other _ _ e]; exact h
  refine ⟨hi.lin, fun e he => Nat.lt_succ_of_lt (hi.past e he),
    fun j d hd => Nat.le_succ_of_le (hi.starts j d hd), ?_, ?_, ?_, ?_, hi.layers, ?_⟩
  · intro j d hd
    by_cases e : j = i
    · subst e
      have hd' : s.calls j = some d := hd
      rw [hc] at hd'
      cases hd'
      have hk := hi.calls j c hc
      unfold CallOk at hk ⊢
      rw [hp] at hk
      rw [show ((s.lockShared j n).goto j .opening).phase j = .opening from upd_same _ _ _]
      refine ⟨hk.1, hk.2.1, hk.2.2.1, ?_⟩
      rw [ho]
      show j ∈ upd s.shared n (j :: s.shared n) n
      rw [upd_same]
      exact List.mem_cons_self
    · refine (hi.calls j d hd).frame (other j e) (fun _ h => h) (fun op h => ?_) (fun _ _ => rfl)
        (fun _ h => h) (fun _ h _ => h)
      cases op with
      | store m => exact h
      | get m => exact keeps m j h
      | set m r => exact h
  · intro m j hj
    have e : j ≠ i := by
      rintro rfl
      exact (hnot m).1 hj
    rw [other j e]
    exact hi.exclusive m j hj
  · intro m j hj
    by_cases e : j = i
    · subst e
      rcases sh m j hj with ⟨rfl, -⟩ | h
      · refine ⟨?_, c, hc, ho⟩
        show (upd s.phase j .opening j).holds = true
        rw [upd_same]; rfl
      · exact absurd h (hnot m).2
    · rw [other j e]
      rcases sh m j hj with ⟨-, h⟩ | h
      · exact absurd h e
      · exact hi.shared m j h
  · intro m hm
    have hm' : s.exclusive m ≠ none := hm
    have e : m ≠ n := by rintro rfl; exact hm' hx
    show upd s.shared n (i :: s.shared n) m = []
    rw [upd_other _ _ e]
    exact hi.alone m hm'
  · intro m hm
    refine hi.files m (fun j pos rest hj => ?_)
    have e : j ≠ i := by
      rintro rfl
      exact (hnot m).1 hj
    have := hm j pos rest hj
    rw [other j e] at this
    exact this

/-- A call gets the exclusive lock. -/
theorem Inv.lockX {s : LockedRollups} {G : List Eff} (hi : Inv s G) {i : Nat} {c : TC}
    {n r : LayerName} (hc : s.calls i = some c) (ho : c.op = .set n r) (hp : s.phase i = .waiting)
    (hx : s.exclusive n = none) (hs : s.shared n = []) :
    Inv ((s.lockExclusive i n).goto i .opening) G := by
  have other : ∀ j, j ≠ i → ((s.lockExclusive i n).goto i .opening).phase j = s.phase j :=
    fun j hj => upd_other _ _ hj
  have hnot := hi.not_held (i := i) (by rw [hp]; rfl)
  have ex : ∀ m j, ((s.lockExclusive i n).goto i .opening).exclusive m = some j →
      (m = n ∧ j = i) ∨ s.exclusive m = some j := by
    intro m j hj
    replace hj : upd s.exclusive n (some i) m = some j := hj
    by_cases e : m = n
    · subst e
      rw [upd_same] at hj
      exact Or.inl ⟨rfl, (Option.some.inj hj).symm⟩
    · rw [upd_other _ _ e] at hj
      exact Or.inr hj
  have keepx : ∀ m j, s.exclusive m = some j →
      ((s.lockExclusive i n).goto i .opening).exclusive m = some j := by
    intro m j h
    have e : m ≠ n := by rintro rfl; rw [hx] at h; cases h
    show upd s.exclusive n (some i) m = some j
    rw [upd_other _ _ e]
    exact h
  refine ⟨hi.lin, fun e he => Nat.lt_succ_of_lt (hi.past e he),
    fun j d hd => Nat.le_succ_of_le (hi.starts j d hd), ?_, ?_, ?_, ?_, hi.layers, ?_⟩
  · intro j d hd
    by_cases e : j = i
    · subst e
      have hd' : s.calls j = some d := hd
      rw [hc] at hd'
      cases hd'
      have hk := hi.calls j c hc
      unfold CallOk at hk ⊢
      rw [hp] at hk
      rw [show ((s.lockExclusive j n).goto j .opening).phase j = .opening from upd_same _ _ _]
      refine ⟨hk.1, hk.2.1, hk.2.2.1, ?_⟩
      rw [ho]
      show upd s.exclusive n (some j) n = some j
      rw [upd_same]
    · refine (hi.calls j d hd).frame (other j e) (fun _ h => h) (fun op h => ?_) (fun _ _ => rfl)
        (fun _ h => h) (fun _ h _ => h)
      cases op with
      | store m => exact h
      | get m => exact h
      | set m r => exact keepx m j h
  · intro m j hj
    by_cases e : j = i
    · subst e
      rcases ex m j hj with ⟨rfl, -⟩ | h
      · refine ⟨?_, c, r, hc, ho⟩
        show (upd s.phase j .opening j).holds = true
        rw [upd_same]; rfl
      · exact absurd h (hnot m).1
    · rw [other j e]
      rcases ex m j hj with ⟨-, h⟩ | h
      · exact absurd h e
      · exact hi.exclusive m j h
  · intro m j hj
    have e : j ≠ i := by
      rintro rfl
      exact (hnot m).2 hj
    rw [other j e]
    exact hi.shared m j hj
  · intro m hm
    by_cases e : m = n
    · subst e
      exact hs
    · have hm' : upd s.exclusive n (some i) m ≠ none := hm
      rw [upd_other _ _ e] at hm'
      exact hi.alone m hm'
  · intro m hm
    refine hi.files m (fun j pos rest hj => ?_)
    have e : j ≠ i := by
      rintro rfl
      exact (hnot m).1 hj
    have := hm j pos rest (keepx m j hj)
    rw [other j e] at this
    exact this

theorem Inv.go {s s' : LockedRollups} {G : List Eff} (hi : Inv s G) {i : Nat}
    (hg : Go true i s s') : ∃ G', Inv s' G' := by
  obtain ⟨k, c, hc, hn⟩ := hg
  have hk := hi.calls i c hc
  unfold CallOk at hk
  unfold next at hn
  have ph : ∀ p, (s.goto i p).phase i = p := fun p => upd_same _ _ _
  cases hp : s.phase i with
  | begun =>
    rw [hp] at hk hn
    obtain ⟨ha, he⟩ := hk
    have hh : (s.phase i).holds = true → ∀ p : Phase, p.holds = true := by
      rw [hp]; exact fun h => by cases h
    cases ho : c.op with
    | store n =>
      rw [ho] at hn
      cases hn
      refine hi.take hc ha he (by rw [ho]; rfl) (Or.inl rfl) (fun h => hh h _) ?_ ?_ ?_
      · intro m
        rw [ho]
        show upd s.layer n true m = (if m = n then _ else _ : Option _).isSome
        by_cases e : m = n
        · subst e; rw [upd_same, if_pos rfl]; rfl
        · rw [upd_other _ _ e, if_neg e]; exact hi.layers m
      · intro m hm
        show upd s.layer n true m = true
        by_cases e : m = n
        · subst e; rw [upd_same]
        · rw [upd_other _ _ e]; exact hm
      · intro m hm
        rw [ho]
        show s.file m = (((if m = n then _ else _ : Option _)).getD none).map data
        have hf := hi.files m (fun j pos rest hj => hm j pos rest hj (by
          rintro rfl
          have := (hi.exclusive m j hj).1
          rw [hp] at this
          cases this))
        by_cases e : m = n
        · subst e; rw [if_pos rfl]; exact hf
        · rw [if_neg e]; exact hf
    | get n =>
      rw [ho] at hn
      simp only [Option.some.injEq] at hn
      split at hn
      · rename_i hl
        subst hn
        refine ⟨G, hi.move hc ?_ (fun h => hh h _) (by rw [hp]; exact fun _ _ h => by cases h)⟩
        unfold CallOk
        rw [ph]
        exact ⟨ha, he, by rw [ho]; exact hl, by rw [ho]; exact fun _ h => by cases h⟩
      · rename_i hl
        subst hn
        have hl' : reg G n = none := by
          have := hi.layers n
          cases hr : reg G n with
          | none => rfl
          | some x => rw [hr] at this; exact absurd this hl
        refine hi.take hc ha he (layer := s.layer) ?_ (Or.inl rfl) (fun h => hh h _) ?_ (fun _ h => h)
          ?_
        · rw [ho]
          show RollupRes.got ((reg G n).getD none) = _
          rw [hl']; rfl
        · rw [ho]; exact hi.layers
        · intro m hm
          rw [ho]
          exact hi.files m (fun j pos rest hj => hm j pos rest hj (by
            rintro rfl
            have := (hi.exclusive m j hj).1
            rw [hp] at this
            cases this))
    | set n r =>
      rw [ho] at hn
      simp only [Option.some.injEq] at hn
      split at hn
      · rename_i hl
        subst hn
        refine ⟨G, hi.move hc ?_ (fun h => hh h _) (by rw [hp]; exact fun _ _ h => by cases h)⟩
        unfold CallOk
        rw [ph]
        exact ⟨ha, he, by rw [ho]; exact hl, by rw [ho]; exact fun _ h => by cases h⟩
      · rename_i hl
        subst hn
        have hl' : reg G n = none := by
          have := hi.layers n
          cases hr : reg G n with
          | none => rfl
          | some x => rw [hr] at this; exact absurd this hl
        have hcall : rollupCall (reg G) (.set n r) = (.missing, reg G) := by
          simp only [rollupCall, hl']
        refine hi.take hc ha he (layer := s.layer) ?_ (Or.inl rfl) (fun h => hh h _) ?_ (fun _ h => h)
          ?_
        · rw [ho, hcall]
        · rw [ho, hcall]; exact hi.layers
        · intro m hm
          rw [ho, hcall]
          exact hi.files m (fun j pos rest hj => hm j pos rest hj (by
            rintro rfl
            have := (hi.exclusive m j hj).1
            rw [hp] at this
            cases this))
  | waiting =>
    rw [hp] at hn
    cases ho : c.op with
    | store n => rw [ho] at hn; cases hn
    | get n =>
      rw [ho] at hn
      simp only [if_true] at hn
      split at hn
      · rename_i hx
        cases hn
        exact ⟨G, hi.lockS hc ho hp hx⟩
      · cases hn
    | set n r =>
      rw [ho] at hn
      simp only at hn
      split at hn
      · rename_i hx
        cases hn
        exact ⟨G, hi.lockX hc ho hp hx.1 hx.2⟩
      · cases hn
  | opening =>
    rw [hp] at hk hn
    obtain ⟨ha, he, hl, hh⟩ := hk
    cases ho : c.op with
    | store n => rw [ho] at hn; cases hn
    | get n =>
      rw [ho] at hn hh
      have hf : s.file n = ((reg G n).getD none).map data := hi.files n (fun j pos rest hj => by
        have : s.shared n = [] := hi.alone n (by rw [hj]; exact fun h => by cases h)
        have hh' : i ∈ s.shared n := hh
        rw [this] at hh'
        cases hh')
      simp only at hn
      split at hn
      · rename_i hnone
        cases hn
        refine hi.take hc ha he (layer := s.layer) ?_ (Or.inr ⟨rfl, by rw [ho]; exact hh⟩)
          (fun _ => rfl) ?_ (fun _ h => h) ?_
        · rw [ho]
          show RollupRes.got ((reg G n).getD none) = _
          rw [hnone] at hf
          cases hr : (reg G n).getD none with
          | none => rfl
          | some x => rw [hr] at hf; cases hf
        · rw [ho]; exact hi.layers
        · intro m hm
          rw [ho]
          refine hi.files m (fun j pos rest hj => hm j pos rest hj ?_)
          rintro rfl
          obtain ⟨-, d, r, hd, hd'⟩ := hi.exclusive m j hj
          rw [hc] at hd
          cases hd
          rw [ho] at hd'
          cases hd'
      · rename_i b hb
        cases hn
        refine ⟨G, hi.move hc ?_ (fun _ => rfl) (by rw [hp]; exact fun _ _ h => by cases h)⟩
        unfold CallOk
        rw [ph]
        exact ⟨ha, he, hl, by rw [ho]; exact hh, n, ho, b, hb, List.nil_prefix⟩
    | set n r =>
      rw [ho] at hn hh
      cases hn
      refine ⟨G, hi.write hc ho hh ?_⟩
      unfold CallOk
      rw [show ((s.putFile n []).goto i (.writing 0 (data r))).phase i = .writing 0 (data r) from
        upd_same _ _ _]
      refine ⟨ha, he, hl, by rw [ho]; exact hh, n, r, ho, Nat.zero_le _, ?_, rfl⟩
      show upd s.file n _ n = _
      rw [upd_same]
      rfl
  | reading got =>
    rw [hp] at hk hn
    obtain ⟨ha, he, hl, hh, n, ho, b, hb, hpre⟩ := hk
    rw [ho] at hn
    simp only [hb, Option.getD_some] at hn
    split at hn
    · cases hn
      refine ⟨G, hi.move hc ?_ (fun _ => rfl) (by rw [hp]; exact fun _ _ h => by cases h)⟩
      unfold CallOk
      rw [ph]
      refine ⟨ha, he, hl, hh, n, ho, b, hb, ?_⟩
      obtain ⟨t, rfl⟩ := hpre
      rw [show readAt (got ++ t) got.length k = t.take (k + 1) by simp [readAt]]
      exact (List.prefix_append_right_inj got).2 (List.take_prefix _ _)
    · rename_i hge
      cases hn
      have hgot : got = b := hpre.eq_of_length (by have := hpre.length_le; omega)
      subst hgot
      rw [ho] at hh
      have hf : s.file n = ((reg G n).getD none).map data := hi.files n (fun j pos rest hj => by
        have : s.shared n = [] := hi.alone n (by rw [hj]; exact fun h => by cases h)
        have hh' : i ∈ s.shared n := hh
        rw [this] at hh'
        cases hh')
      refine hi.take hc ha he (layer := s.layer) ?_ (Or.inr ⟨rfl, by rw [ho]; exact hh⟩)
        (fun _ => rfl) ?_ (fun _ h => h) ?_
      · rw [ho]
        show RollupRes.got ((reg G n).getD none) = _
        rw [hb] at hf
        cases hr : (reg G n).getD none with
        | none => rw [hr] at hf; cases hf
        | some x =>
          rw [hr] at hf
          cases hf
          rw [result_data]
      · rw [ho]; exact hi.layers
      · intro m hm
        rw [ho]
        refine hi.files m (fun j pos rest hj => hm j pos rest hj ?_)
        rintro rfl
        obtain ⟨-, d, r, hd, hd'⟩ := hi.exclusive m j hj
        rw [hc] at hd
        cases hd
        rw [ho] at hd'
        cases hd'
  | writing pos rest =>
    rw [hp] at hk hn
    obtain ⟨ha, he, hl, hh, n, r, ho, hpos, hfile, hrest⟩ := hk
    rw [ho] at hn hh hl
    have hx : s.exclusive n = some i := hh
    simp only [hfile, Option.getD_some] at hn
    split at hn
    · rename_i hnil
      cases hn
      have hfull : pos = (data r).length := by
        rw [hnil] at hrest
        have := congrArg List.length hrest
        rw [List.length_drop] at this
        simp at this
        omega
      have hsome : ∃ x, reg G n = some x := by
        have := hi.layers n
        rw [show s.layer n = true from hl] at this
        exact Option.isSome_iff_exists.1 this.symm
      obtain ⟨x, hx'⟩ := hsome
      have hcall : rollupCall (reg G) (.set n r) =
          (.done, fun k => if k = n then some (some r) else reg G k) := by
        simp only [rollupCall, hx']
      refine hi.take hc ha he (layer := s.layer) (by rw [ho, hcall]) (Or.inr ⟨rfl, by rw [ho]; exact hh⟩)
        (fun _ => rfl) ?_ (fun _ h => h) ?_
      · intro m
        rw [ho, hcall]
        show s.layer m = (if m = n then _ else _ : Option _).isSome
        by_cases e : m = n
        · subst e; rw [if_pos rfl]; exact hl
        · rw [if_neg e]; exact hi.layers m
      · intro m hm
        rw [ho, hcall]
        show s.file m = (((if m = n then _ else _ : Option _)).getD none).map data
        by_cases e : m = n
        · subst e
          rw [if_pos rfl, hfile, hfull, List.take_length]
          rfl
        · rw [if_neg e]
          refine hi.files m (fun j pos' rest' hj => hm j pos' rest' hj ?_)
          rintro rfl
          obtain ⟨-, d, r', hd, hd'⟩ := hi.exclusive m j hj
          rw [hc] at hd
          cases hd
          rw [ho] at hd'
          cases hd'
          exact e rfl
    · rename_i hne
      cases hn
      refine ⟨G, hi.write hc ho hx ?_⟩
      unfold CallOk
      rw [show ∀ b p, ((s.putFile n b).goto i p).phase i = p from fun _ _ => upd_same _ _ _]
      have hlen : ((data r).take pos).length = pos := by rw [List.length_take]; omega
      have hxr : rest.take (rest.take (k + 1)).length = rest.take (k + 1) := by
        rw [List.length_take, List.take_eq_take_iff]
        omega
      have hrl : (rest.take (k + 1)).length ≤ (data r).length - pos := by
        rw [hrest, List.length_take, List.length_drop]; omega
      refine ⟨ha, he, by rw [ho]; exact hl, by rw [ho]; exact hh, n, r, ho, by omega, ?_, ?_⟩
      · show upd s.file n _ n = _
        rw [upd_same]
        congr 1
        rw [show writeAt ((data r).take pos) pos (rest.take (k + 1)) =
          (data r).take pos ++ rest.take (k + 1) by
            have := LockedLabels.writeAt_end ((data r).take pos) (rest.take (k + 1))
            rw [hlen] at this
            exact this]
        generalize rest.take (k + 1) = x at *
        rw [List.take_add, ← hrest, hxr]
      · rw [hrest, List.drop_drop, List.length_take, List.length_drop]
        by_cases h : k + 1 ≤ (data r).length - pos
        · rw [Nat.min_eq_left h]
        · rw [Nat.min_eq_right (by omega), List.drop_eq_nil_of_le (by omega),
            List.drop_eq_nil_of_le (by omega)]
  | unlocking r =>
    rw [hp] at hk hn
    have hn' : some ((s.unlock i c.op.name).goto i (.returning r)) = some s' := by
      cases ho : c.op <;> rw [ho] at hn <;> exact hn
    cases hn'
    refine ⟨G, hi.release hc ?_ (by rw [hp]; exact fun _ _ h => by cases h)⟩
    unfold CallOk
    rw [show ((s.unlock i c.op.name).goto i (.returning r)).phase i = .returning r from
      upd_same _ _ _]
    exact ⟨hk.1, hk.2.1⟩
  | returning r =>
    rw [hp] at hk hn
    have hn' : some (s.answer i c r) = some s' := by
      cases ho : c.op <;> rw [ho] at hn <;> exact hn
    cases hn'
    obtain ⟨ha, e0, he0, hid, hres⟩ := hk
    refine ⟨G, ?_⟩
    have other : ∀ j, j ≠ i → (s.answer i c r).phase j = s.phase j := fun j hj => upd_other _ _ hj
    have otherc : ∀ j, j ≠ i → (s.answer i c r).calls j = s.calls j := fun j hj => upd_other _ _ hj
    have hnot := hi.not_held (i := i) (by rw [hp]; rfl)
    refine ⟨?_, fun e he => Nat.lt_succ_of_lt (hi.past e he), ?_, ?_, ?_, ?_, hi.alone, hi.layers, ?_⟩
    · refine hi.lin.finish (i := i) otherc hc (upd_same _ _ _) (fun _ => ⟨e0, he0, hid⟩) ?_
      intro e he hei
      have : e = e0 := hi.lin.same he he0 (by rw [hei, hid])
      subst this
      exact ⟨hres, Nat.le_of_lt (hi.past e he)⟩
    · intro j d hd
      show d.start ≤ s.now + 1
      by_cases e : j = i
      · subst e
        rw [show (s.answer j c r).calls j = _ from upd_same _ _ _] at hd
        cases hd
        exact Nat.le_succ_of_le (hi.starts j c hc)
      · rw [otherc j e] at hd
        exact Nat.le_succ_of_le (hi.starts j d hd)
    · intro j d hd
      by_cases e : j = i
      · subst e
        rw [show (s.answer j c r).calls j = _ from upd_same _ _ _] at hd
        cases hd
        unfold CallOk
        rw [show (s.answer j c r).phase j = .done from upd_same _ _ _]
        exact fun h => by cases h
      · rw [otherc j e] at hd
        exact (hi.calls j d hd).frame (other j e) (fun _ h => h) (fun op h => by
          cases op <;> exact h) (fun _ _ => rfl) (fun _ h => h) (fun _ h _ => h)
    · intro n j hj
      have e : j ≠ i := by rintro rfl; exact (hnot n).1 hj
      obtain ⟨h1, d, r', h2, h3⟩ := hi.exclusive n j hj
      exact ⟨by rw [other j e]; exact h1, d, r', by rw [otherc j e]; exact h2, h3⟩
    · intro n j hj
      have e : j ≠ i := by rintro rfl; exact (hnot n).2 hj
      obtain ⟨h1, d, h2, h3⟩ := hi.shared n j hj
      exact ⟨by rw [other j e]; exact h1, d, by rw [otherc j e]; exact h2, h3⟩
    · intro n hn
      refine hi.files n (fun j pos rest hj => ?_)
      have e : j ≠ i := by rintro rfl; exact (hnot n).1 hj
      have := hn j pos rest hj
      rw [other j e] at this
      exact this
  | done => rw [hp] at hn; cases ho : c.op <;> rw [ho] at hn <;> cases hn
  | dropped => rw [hp] at hn; cases ho : c.op <;> rw [ho] at hn <;> cases hn

theorem Inv.begin {s : LockedRollups} {G : List Eff} (hi : Inv s G) {i : Nat}
    {op : RollupOp LayerName} (hc : s.calls i = none) :
    Inv { s with calls := upd s.calls i (some ⟨op, s.now, none⟩)
                 phase := upd s.phase i .begun
                 now := s.now + 1 } G := by
  have other : ∀ j, j ≠ i → upd s.phase i .begun j = s.phase j := fun j hj => upd_other _ _ hj
  have otherc : ∀ j, j ≠ i → upd s.calls i (some ⟨op, s.now, none⟩) j = s.calls j :=
    fun j hj => upd_other _ _ hj
  have hx : ∀ n j, s.exclusive n = some j → j ≠ i := by
    rintro n j hj rfl
    obtain ⟨-, d, r, hd, -⟩ := hi.exclusive n j hj
    rw [hc] at hd
    cases hd
  have hs : ∀ n j, j ∈ s.shared n → j ≠ i := by
    rintro n j hj rfl
    obtain ⟨-, d, hd, -⟩ := hi.shared n j hj
    rw [hc] at hd
    cases hd
  refine ⟨hi.lin.start (i := i) otherc hc (upd_same _ _ _),
    fun e he => Nat.lt_succ_of_lt (hi.past e he), ?_, ?_, ?_, ?_, hi.alone, hi.layers, ?_⟩
  · intro j d hd
    show d.start ≤ s.now + 1
    by_cases e : j = i
    · subst e
      have hd' : upd s.calls j _ j = some d := hd
      rw [upd_same] at hd'
      cases hd'
      exact Nat.le_succ _
    · have hd' : upd s.calls i _ j = some d := hd
      rw [otherc j e] at hd'
      exact Nat.le_succ_of_le (hi.starts j d hd')
  · intro j d hd
    by_cases e : j = i
    · subst e
      have hd' : upd s.calls j _ j = some d := hd
      rw [upd_same] at hd'
      cases hd'
      unfold CallOk
      simp only [upd_same]
      refine ⟨trivial, fun e he hj => ?_⟩
      obtain ⟨d, hd, -⟩ := hi.lin.sound e he
      rw [hj, hc] at hd
      cases hd
    · have hd' : upd s.calls i _ j = some d := hd
      rw [otherc j e] at hd'
      exact (hi.calls j d hd').frame (other j e) (fun _ h => h) (fun op h => by
        cases op <;> exact h) (fun _ _ => rfl) (fun _ h => h) (fun _ h _ => h)
  · intro n j hj
    have e := hx n j hj
    obtain ⟨h1, d, r, h2, h3⟩ := hi.exclusive n j hj
    exact ⟨by simp only [other j e]; exact h1, d, r,
      (otherc j e).trans h2, h3⟩
  · intro n j hj
    have e := hs n j hj
    obtain ⟨h1, d, h2, h3⟩ := hi.shared n j hj
    exact ⟨by simp only [other j e]; exact h1, d,
      (otherc j e).trans h2, h3⟩
  · intro n hn
    refine hi.files n (fun j pos rest hj => ?_)
    have := hn j pos rest hj
    simp only [other j (hx n j hj)] at this
    exact this

/-- A call that reads is dropped. -/
theorem Inv.drop {s : LockedRollups} {G : List Eff} (hi : Inv s G) {i : Nat} {c : TC}
    (hc : s.calls i = some c) (ha : c.answer = none) (ho : ∀ n r, c.op ≠ .set n r) :
    Inv (s.drop i c.op.name) G := by
  refine hi.release hc ?_ ?_
  · unfold CallOk
    rw [show ((s.unlock i c.op.name).goto i .dropped).phase i = .dropped from upd_same _ _ _]
    exact ha
  · intro pos rest hp
    have := hi.calls i c hc
    unfold CallOk at this
    rw [hp] at this
    obtain ⟨-, -, -, -, n, r, h, -⟩ := this
    exact ho n r h

theorem Run.inv {drops : RollupOp LayerName → Bool} (hd : ∀ n r, drops (.set n r) = false)
    {s : LockedRollups} (h : Run true drops s) : ∃ G, Inv s G := by
  induction h with
  | start => exact ⟨[], .start⟩
  | step _ hs ih =>
    obtain ⟨G, hi⟩ := ih
    cases hs with
    | start hc => exact ⟨G, hi.begin hc⟩
    | go hg => exact hi.go hg
    | drop hc ha ho =>
      refine ⟨G, hi.drop hc ha (fun n r h => ?_)⟩
      rw [h, hd] at ho
      cases ho

end LockedRollups

end Verif
