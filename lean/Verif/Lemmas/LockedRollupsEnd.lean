import Verif.Lemmas.LockedRollups
import Verif.Lemmas.LockedProgress

/-!
Calls on the rollup files of an archive store do not block each other for ever.
-/

namespace Verif

open Spec

namespace LockedRollups

open LockedLabels (readAt total total_lt)

variable {s s' : LockedRollups} {G : List Eff} {i : Nat} {c : TC}

/-- Who has a lock can go on. -/
theorem Inv.holder (hi : Inv s G) (hc : s.calls i = some c) (hp : (s.phase i).holds = true) :
    ∃ s', Go true i s s' := by
  have hk := hi.calls i c hc
  unfold CallOk at hk
  suffices h : ∃ s', next true s i 0 c = some s' by
    obtain ⟨s', h⟩ := h
    exact ⟨s', 0, c, hc, h⟩
  unfold next
  cases h : s.phase i with
  | begun => rw [h] at hp; cases hp
  | waiting => rw [h] at hp; cases hp
  | opening =>
    rw [h] at hk
    obtain ⟨-, -, -, hh⟩ := hk
    cases ho : c.op with
    | store n => rw [ho] at hh; exact hh.elim
    | get n =>
      simp only
      split <;> exact ⟨_, rfl⟩
    | set n r => exact ⟨_, rfl⟩
  | reading got =>
    rw [h] at hk
    obtain ⟨-, -, -, -, n, ho, -⟩ := hk
    rw [ho]
    simp only
    split <;> exact ⟨_, rfl⟩
  | writing pos rest =>
    rw [h] at hk
    obtain ⟨-, -, -, -, n, r, ho, -⟩ := hk
    rw [ho]
    simp only
    split <;> exact ⟨_, rfl⟩
  | unlocking r => cases c.op <;> exact ⟨_, rfl⟩
  | returning r => rw [h] at hp; cases hp
  | done => rw [h] at hp; cases hp
  | dropped => rw [h] at hp; cases hp

/-- As long as a call is under way, some call can go on. -/
theorem Inv.progress (hi : Inv s G) (hc : s.calls i = some c) (ha : c.answer = none)
    (hd : s.phase i ≠ .dropped) : ∃ j s', Go true j s s' := by
  cases h : s.phase i with
  | begun =>
    refine ⟨i, ?_⟩
    suffices h : ∃ s', next true s i 0 c = some s' by
      obtain ⟨s', h⟩ := h
      exact ⟨s', 0, c, hc, h⟩
    unfold next
    rw [h]
    cases c.op <;> exact ⟨_, rfl⟩
  | waiting =>
    have hk := hi.calls i c hc
    unfold CallOk at hk
    rw [h] at hk
    have excl : ∀ n j, s.exclusive n = some j → ∃ j s', Go true j s s' := by
      intro n j hj
      obtain ⟨h1, d, r, h2, -⟩ := hi.exclusive n j hj
      exact ⟨j, hi.holder h2 h1⟩
    have shar : ∀ n j, j ∈ s.shared n → ∃ j s', Go true j s s' := by
      intro n j hj
      obtain ⟨h1, d, h2, -⟩ := hi.shared n j hj
      exact ⟨j, hi.holder h2 h1⟩
    have me : (∃ s', next true s i 0 c = some s') → ∃ j s', Go true j s s' :=
      fun ⟨s', h⟩ => ⟨i, s', 0, c, hc, h⟩
    cases ho : c.op with
    | store n => exact absurd ho (hk.2.2.2 n)
    | get n =>
      cases hx : s.exclusive n with
      | some j => exact excl n j hx
      | none =>
        refine me ?_
        unfold next
        rw [h, ho]
        simp only [hx, if_true]
        exact ⟨_, rfl⟩
    | set n r =>
      cases hx : s.exclusive n with
      | some j => exact excl n j hx
      | none =>
        cases hs : s.shared n with
        | cons j l => exact shar n j (by rw [hs]; exact List.mem_cons_self)
        | nil =>
          refine me ?_
          unfold next
          rw [h, ho]
          simp only [hx, hs, and_self, if_true]
          exact ⟨_, rfl⟩
  | opening => exact ⟨i, hi.holder hc (by rw [h]; rfl)⟩
  | reading got => exact ⟨i, hi.holder hc (by rw [h]; rfl)⟩
  | writing pos rest => exact ⟨i, hi.holder hc (by rw [h]; rfl)⟩
  | unlocking r => exact ⟨i, hi.holder hc (by rw [h]; rfl)⟩
  | returning r =>
    refine ⟨i, ?_⟩
    suffices h : ∃ s', next true s i 0 c = some s' by
      obtain ⟨s', h⟩ := h
      exact ⟨s', 0, c, hc, h⟩
    unfold next
    rw [h]
    cases c.op <;> exact ⟨_, rfl⟩
  | done =>
    have hk := hi.calls i c hc
    unfold CallOk at hk
    rw [h] at hk
    exact absurd ha hk
  | dropped => exact absurd h hd

/-- How much a call has yet to do. -/
def Phase.left : Phase → Nat
  | .begun => 200
  | .waiting => 150
  | .opening => 100
  | .reading got => 3 + (43 - got.length)
  | .writing _ rest => 3 + rest.length
  | .unlocking _ => 2
  | .returning _ => 1
  | .done => 0
  | .dropped => 0

theorem Inv.go_less (hi : Inv s G) (hg : Go true i s s') :
    (∃ c, s.calls i = some c) ∧ (∀ j, j ≠ i → s'.phase j = s.phase j) ∧
      (∀ j, s'.calls j = none ↔ s.calls j = none) ∧ (s'.phase i).left < (s.phase i).left := by
  obtain ⟨k, c, hc, hn⟩ := hg
  have hk := hi.calls i c hc
  unfold CallOk at hk
  unfold next at hn
  refine ⟨⟨c, hc⟩, ?_⟩
  have mk : ∀ (t : LockedRollups) (p : Phase), t.phase = s.phase → t.calls = s.calls →
      p.left < (s.phase i).left → t.goto i p = s' →
      (∀ j, j ≠ i → s'.phase j = s.phase j) ∧
      (∀ j, s'.calls j = none ↔ s.calls j = none) ∧ (s'.phase i).left < (s.phase i).left := by
    rintro t p h1 h2 h3 rfl
    refine ⟨fun j hj => ?_, fun j => ?_, ?_⟩
    · show upd t.phase i p j = _
      rw [upd_other _ _ hj, h1]
    · show t.calls j = none ↔ _
      rw [h2]
    · rw [show (t.goto i p).phase i = p from upd_same _ _ _]
      exact h3
  cases hp : s.phase i with
  | begun =>
    rw [← hp]
    rw [hp] at hn
    cases ho : c.op with
    | store n =>
      rw [ho] at hn
      exact mk { s with layer := upd s.layer n true } (.returning .done) rfl rfl
        (by rw [hp]; decide) (Option.some.inj hn)
    | get n =>
      rw [ho] at hn
      simp only [Option.some.injEq] at hn
      split at hn
      · exact mk _ .waiting rfl rfl (by rw [hp]; decide) hn
      · exact mk _ (.returning (.got none)) rfl rfl (by rw [hp]; decide) hn
    | set n r =>
      rw [ho] at hn
      simp only [Option.some.injEq] at hn
      split at hn
      · exact mk _ .waiting rfl rfl (by rw [hp]; decide) hn
      · exact mk _ (.returning .missing) rfl rfl (by rw [hp]; decide) hn
  | waiting =>
    rw [← hp]
    rw [hp] at hn
    cases ho : c.op with
    | store n => rw [ho] at hn; cases hn
    | get n =>
      rw [ho] at hn
      simp only [if_true] at hn
      split at hn
      · exact mk (s.lockShared i n) .opening rfl rfl (by rw [hp]; decide) (Option.some.inj hn)
      · cases hn
    | set n r =>
      rw [ho] at hn
      simp only at hn
      split at hn
      · exact mk (s.lockExclusive i n) .opening rfl rfl (by rw [hp]; decide) (Option.some.inj hn)
      · cases hn
  | opening =>
    rw [← hp]
    rw [hp] at hn
    cases ho : c.op with
    | store n => rw [ho] at hn; cases hn
    | get n =>
      rw [ho] at hn
      simp only at hn
      split at hn
      · exact mk _ (.unlocking (.got none)) rfl rfl (by rw [hp]; decide) (Option.some.inj hn)
      · exact mk _ (.reading []) rfl rfl (by rw [hp]; decide) (Option.some.inj hn)
    | set n r =>
      rw [ho] at hn
      refine mk (s.putFile n []) (.writing 0 (data r)) rfl rfl ?_ (Option.some.inj hn)
      rw [hp]
      show 3 + (data r).length < 100
      rw [data_length]
      decide
  | reading got =>
    rw [← hp]
    rw [hp] at hn hk
    obtain ⟨-, -, -, hh, n, ho, b, hb, hpre⟩ := hk
    rw [ho] at hn
    simp only [hb, Option.getD_some] at hn
    split at hn
    · rename_i hlt
      refine mk _ _ rfl rfl ?_ (Option.some.inj hn)
      rw [hp]
      rw [ho] at hh
      have hf : s.file n = ((reg G n).getD none).map data := hi.files n (fun j pos rest hj => by
        have : s.shared n = [] := hi.alone n (by rw [hj]; exact fun h => by cases h)
        have hh' : i ∈ s.shared n := hh
        rw [this] at hh'
        cases hh')
      have hlen : b.length = 43 := by
        rw [hb] at hf
        cases hr : (reg G n).getD none with
        | none => rw [hr] at hf; cases hf
        | some x =>
          rw [hr] at hf
          cases hf
          exact data_length x
      show 3 + (43 - (got ++ readAt b got.length k).length) < 3 + (43 - got.length)
      have : (readAt b got.length k).length = min (k + 1) (b.length - got.length) := by
        simp [readAt]
      rw [List.length_append, this]
      omega
    · refine mk _ _ rfl rfl ?_ (Option.some.inj hn)
      rw [hp]
      show 2 < 3 + _
      omega
  | writing pos rest =>
    rw [← hp]
    rw [hp] at hn hk
    obtain ⟨-, -, -, -, n, r, ho, -⟩ := hk
    rw [ho] at hn
    simp only at hn
    split at hn
    · refine mk _ _ rfl rfl ?_ (Option.some.inj hn)
      rw [hp]
      show 2 < 3 + _
      omega
    · rename_i hne
      refine mk (s.putFile n _) _ rfl rfl ?_ (Option.some.inj hn)
      rw [hp]
      show 3 + (rest.drop (k + 1)).length < 3 + rest.length
      have : 0 < rest.length := List.length_pos_iff.2 hne
      rw [List.length_drop]
      omega
  | unlocking r =>
    rw [← hp]
    rw [hp] at hn
    have hn' : some ((s.unlock i c.op.name).goto i (.returning r)) = some s' := by
      cases ho : c.op <;> rw [ho] at hn <;> exact hn
    exact mk (s.unlock i c.op.name) _ rfl rfl (by rw [hp]; exact Nat.lt_succ_self 1)
      (Option.some.inj hn')
  | returning r =>
    rw [hp] at hn
    have hn' : some (s.answer i c r) = some s' := by
      cases ho : c.op <;> rw [ho] at hn <;> exact hn
    cases hn'
    refine ⟨fun j hj => upd_other _ _ hj, fun j => ?_, ?_⟩
    · show upd s.calls i _ j = none ↔ _
      by_cases e : j = i
      · subst e
        rw [upd_same, hc]
        simp
      · rw [upd_other _ _ e]
    · rw [show (s.answer i c r).phase i = .done from upd_same _ _ _]
      exact Nat.zero_lt_one
  | done => rw [hp] at hn; cases ho : c.op <;> rw [ho] at hn <;> cases hn
  | dropped => rw [hp] at hn; cases ho : c.op <;> rw [ho] at hn <;> cases hn

theorem Run.finite {drops : RollupOp LayerName → Bool} (hd : ∀ n r, drops (.set n r) = false)
    (h : Run true drops s) : ∃ n, ∀ j, n ≤ j → s.calls j = none := by
  induction h with
  | start => exact ⟨0, fun _ _ => rfl⟩
  | step hr hs ih =>
    obtain ⟨n, hn⟩ := ih
    cases hs with
    | @start i op h1 =>
      refine ⟨max n (i + 1), fun j hj => ?_⟩
      show upd _ i _ j = none
      have hji : j ≠ i := by omega
      rw [upd_other _ _ hji]
      exact hn j (by omega)
    | go hg =>
      obtain ⟨G, h⟩ := hr.inv hd
      exact ⟨n, fun j hj => ((h.go_less hg).2.2.1 j).2 (hn j hj)⟩
    | drop _ _ _ => exact ⟨n, hn⟩

/-- All executions in which no call begins come to an end. -/
theorem Run.ends {drops : RollupOp LayerName → Bool} (hd : ∀ n r, drops (.set n r) = false)
    (hr : Run true drops s) : Acc (fun b a : LockedRollups => ∃ i, Go true i a b) s := by
  obtain ⟨n, hn⟩ := hr.finite hd
  suffices H : ∀ (a : Nat) (s : LockedRollups), Run true drops s → (∀ j, n ≤ j → s.calls j = none) →
      total (fun j => (s.phase j).left) n = a →
      Acc (fun b a : LockedRollups => ∃ i, Go true i a b) s from H _ s hr hn rfl
  intro a
  induction a using Nat.strongRecOn with
  | _ a iha =>
    intro s hr hn ha
    refine Acc.intro s ?_
    rintro s' ⟨i, hg⟩
    obtain ⟨G, h⟩ := hr.inv hd
    obtain ⟨⟨c, hc⟩, h1, h2, h3⟩ := h.go_less hg
    have hi : i < n := by
      by_cases e : n ≤ i
      · rw [hn i e] at hc
        cases hc
      · omega
    have := total_lt (f := fun j => (s'.phase j).left) (g := fun j => (s.phase j).left) hi
      (fun j hj => by simp only [h1 j hj]) h3
    exact iha _ (by omega) s' (hr.step (.go hg)) (fun j hj => (h2 j).2 (hn j hj)) rfl

end LockedRollups

end Verif
