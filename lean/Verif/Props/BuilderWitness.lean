import Verif.Model.StoreBuilder
import Verif.Props.Witness

/-!
Executions of a shared builder that can be evaluated, for the examples.
-/

namespace Verif

open Spec SimpleBuilder

set_option linter.unusedSectionVars false

variable {K V : Type} [LinearOrder K] [LinearOrder V]

/-- A call begins, a call goes on, or a commit fails. -/
inductive BuilderAct (K V : Type) where
  | call (i : Nat) (op : BuilderOp (Op K V))
  | go (i : Nat)
  | fail (i : Nat)

namespace BuilderUse

/-- A call goes on, if it can. -/
def goOn (s : BuilderUse K V) (i : Nat) (c : TimedCall (BuilderOp (Op K V)) BuilderRes) :
    Option (BuilderUse K V) :=
  match s.phase i with
  | .begun =>
    match c.answer with
    | some _ => none
    | none =>
      match c.op with
      | .change op =>
        some { s.answer i c (withBuilder s.lock op).1 with lock := (withBuilder s.lock op).2 }
      | .committed => some (s.answer i c (committed s.lock))
      | .commit =>
        match (takeBuilder s.lock).1 with
        | .inr r => some { s.answer i c r with lock := (takeBuilder s.lock).2 }
        | .inl b => some { s with lock := (takeBuilder s.lock).2
                                  phase := upd s.phase i (.writing b)
                                  now := s.now + 1 }
  | .writing b =>
    match b.commitWith b.nvMap b.pMap with
    | some d =>
      some { s with written := d :: s.written, phase := upd s.phase i .wrote, now := s.now + 1 }
    | none => some (s.answer i c .panicked)
  | .wrote => some (s.answer i c .done)
  | .done => none

/-- One step, if possible. -/
def next (s : BuilderUse K V) : BuilderAct K V → Option (BuilderUse K V)
  | .call i op =>
    match s.calls i with
    | none => some { s with calls := upd s.calls i (some ⟨op, s.now, none⟩), now := s.now + 1 }
    | some _ => none
  | .go i =>
    match s.calls i with
    | none => none
    | some c => s.goOn i c
  | .fail i =>
    match s.calls i, s.phase i with
    | some c, .writing _ => some (s.answer i c .failed)
    | _, _ => none

/-- Steps as long as they are possible. -/
def exec (s : BuilderUse K V) : List (BuilderAct K V) → BuilderUse K V
  | [] => s
  | a :: as =>
    match s.next a with
    | some s' => exec s' as
    | none => s

theorem goOn_step {s s' : BuilderUse K V} {i : Nat}
    {c : TimedCall (BuilderOp (Op K V)) BuilderRes} (hi : s.calls i = some c)
    (h : s.goOn i c = some s') : Step s s' := by
  unfold goOn at h
  split at h
  · rename_i hp
    split at h
    · cases h
    · rename_i ha
      split at h
      · rename_i op ho
        cases h
        exact .change hi ha ho
      · rename_i ho
        cases h
        exact .committed hi ha ho
      · rename_i ho
        split at h
        · rename_i r hr
          cases h
          exact .refuse hi ha ho hp hr
        · rename_i b hb
          cases h
          exact .take hi ha ho hp hb
  · rename_i b hp
    split at h
    · rename_i d hd
      cases h
      exact .write hp (List.Perm.refl _) (List.Perm.refl _) hd
    · rename_i hd
      cases h
      exact .panic hi hp (List.Perm.refl _) (List.Perm.refl _) hd
  · rename_i hp
    cases h
    exact .finish hi hp
  · cases h

theorem next_step {s s' : BuilderUse K V} {a : BuilderAct K V} (h : s.next a = some s') :
    Step s s' := by
  cases a with
  | call i op =>
    simp only [next] at h
    split at h
    · rename_i hi
      cases h
      exact .start hi
    · cases h
  | go i =>
    simp only [next] at h
    split at h
    · cases h
    · rename_i c hi
      exact goOn_step hi h
  | fail i =>
    simp only [next] at h
    split at h
    · rename_i c b hi hp
      cases h
      exact .fail hi hp
    · cases h

theorem exec_run {S : List (LayerData K V)} {s : BuilderUse K V} (h : Run S s)
    (as : List (BuilderAct K V)) : Run S (s.exec as) := by
  induction as generalizing s with
  | nil => exact h
  | cons a as ih =>
    rw [exec]
    split
    · rename_i s' hs
      exact ih (h.step (next_step hs))
    · exact h

/-- A step answers calls, and begins one only if it is asked to. -/
theorem next_calls {s s' : BuilderUse K V} {a : BuilderAct K V} (h : s.next a = some s') {k : Nat}
    {c : TimedCall (BuilderOp (Op K V)) BuilderRes} (hk : s'.calls k = some c) :
    (∃ c0, s.calls k = some c0 ∧ c0.op = c.op) ∨ a = .call k c.op := by
  have ans : ∀ {i : Nat} {c0 : TimedCall (BuilderOp (Op K V)) BuilderRes} {r : BuilderRes},
      s.calls i = some c0 → upd s.calls i (some { c0 with answer := some (r, s.now) }) k = some c →
      ∃ c0, s.calls k = some c0 ∧ c0.op = c.op := by
    intro i c0 r hi hu
    simp only [upd] at hu
    split at hu
    · rename_i e
      subst e
      cases hu
      exact ⟨c0, hi, rfl⟩
    · exact ⟨c, hu, rfl⟩
  cases a with
  | call i op =>
    simp only [next] at h
    split at h
    · cases h
      simp only [upd] at hk
      split at hk
      · rename_i e
        subst e
        cases hk
        exact Or.inr rfl
      · exact Or.inl ⟨c, hk, rfl⟩
    · cases h
  | go i =>
    left
    simp only [next] at h
    split at h
    · cases h
    · rename_i c' hi
      unfold goOn at h
      split at h
      · split at h
        · cases h
        · split at h
          · cases h; exact ans hi hk
          · cases h; exact ans hi hk
          · split at h
            · cases h; exact ans hi hk
            · cases h; exact ⟨c, hk, rfl⟩
      · split at h
        · cases h; exact ⟨c, hk, rfl⟩
        · cases h; exact ans hi hk
      · cases h; exact ans hi hk
      · cases h
  | fail i =>
    left
    simp only [next] at h
    split at h
    · rename_i c' b hi hp
      cases h
      exact ans hi hk
    · cases h

theorem exec_calls {s : BuilderUse K V} (as : List (BuilderAct K V)) {k : Nat}
    {c : TimedCall (BuilderOp (Op K V)) BuilderRes} (hk : (s.exec as).calls k = some c) :
    (∃ c0, s.calls k = some c0 ∧ c0.op = c.op) ∨ BuilderAct.call k c.op ∈ as := by
  induction as generalizing s with
  | nil => exact Or.inl ⟨c, hk, rfl⟩
  | cons a as ih =>
    rw [exec] at hk
    split at hk
    · rename_i s' hs
      rcases ih hk with ⟨c0, h1, h2⟩ | h1
      · rcases next_calls hs h1 with ⟨c1, h3, h4⟩ | rfl
        · exact Or.inl ⟨c1, h3, h4.trans h2⟩
        · right
          rw [← h2]
          exact List.mem_cons_self
      · exact Or.inr (List.mem_cons_of_mem _ h1)
    · exact Or.inl ⟨c, hk, rfl⟩

/-- A builder on `S` that no one has used. -/
def opened (S : List (LayerData K V)) : BuilderUse K V := { lock := .open (SimpleBuilder.new S) }

/-- The begun changes of a schedule. -/
def changeIds : List (BuilderAct K V) → List Nat
  | [] => []
  | .call i (.change _) :: as => i :: changeIds as
  | _ :: as => changeIds as

theorem mem_changeIds {as : List (BuilderAct K V)} {i : Nat} {op : Op K V}
    (h : BuilderAct.call i (.change op) ∈ as) : i ∈ changeIds as := by
  induction as with
  | nil => cases h
  | cons a as ih =>
    rcases List.mem_cons.1 h with rfl | h
    · exact List.mem_cons_self
    · have := ih h
      cases a with
      | call j op =>
        cases op with
        | change _ => exact List.mem_cons_of_mem _ this
        | committed => exact this
        | commit => exact this
      | go _ => exact this
      | fail _ => exact this

/-- The call as seen: what it does, when it began, its answer. -/
def seen (s : BuilderUse K V) (i : Nat) : Option (BuilderOp (Op K V) × Nat × Option (BuilderRes × Nat)) :=
  (s.calls i).map fun c => (c.op, c.start, c.answer)

/-- A test of `ChangesThenCommit`. -/
def tested (s : BuilderUse K V) (as : List (BuilderAct K V)) (ids : List Nat) (cs : List (Op K V))
    (j t : Nat) : Bool :=
  decide (ids.length = cs.length) &&
    (ids.zip cs).all (fun x => match s.seen x.1 with
      | some (o, _, some (_, u)) => decide (o = .change x.2) && decide (u ≤ t)
      | _ => false) &&
    (changeIds as).all (fun i => decide (i ∈ ids)) &&
    match s.seen j with
    | some (o, b, some (r, _)) => decide (o = .commit) && decide (t ≤ b) && decide (r = .done)
    | _ => false

theorem tested_spec {S : List (LayerData K V)} {as : List (BuilderAct K V)} {ids : List Nat}
    {cs : List (Op K V)} {j t : Nat} (h : tested ((opened S).exec as) as ids cs j t = true) :
    ChangesThenCommit ((opened S).exec as).calls ids cs j t := by
  generalize hs : (opened S).exec as = s at h
  simp only [tested, Bool.and_eq_true, decide_eq_true_eq, List.all_eq_true] at h
  obtain ⟨⟨⟨h1, h2⟩, h3⟩, h4⟩ := h
  have hx : ∀ x ∈ ids.zip cs, ∃ call r u, s.calls x.1 = some call ∧ call.op = .change x.2 ∧
      call.answer = some (r, u) ∧ u ≤ t := by
    intro x hx
    have := h2 x hx
    simp only [seen] at this
    cases hc : s.calls x.1 with
    | none => simp [hc] at this
    | some call =>
      simp only [hc, Option.map_some] at this
      cases ha : call.answer with
      | none => simp [ha] at this
      | some ru =>
        obtain ⟨r, u⟩ := ru
        simp only [ha, Bool.and_eq_true, decide_eq_true_eq] at this
        exact ⟨call, r, u, rfl, this.1, ha, this.2⟩
  refine ⟨⟨h1, ?_⟩, ?_, ?_, ?_⟩
  · intro k i c hi hc
    have hz : (ids.zip cs)[k]? = some (i, c) := by
      rw [List.getElem?_zip_eq_some]
      exact ⟨hi, hc⟩
    obtain ⟨call, _, _, g1, g2, _⟩ := hx (i, c) (List.mem_of_getElem? hz)
    exact ⟨call, g1, g2⟩
  · intro i call c hi ho
    rw [← hs] at hi
    rcases exec_calls as hi with ⟨c0, g1, _⟩ | g1
    · cases g1
    · rw [ho] at g1
      exact h3 i (mem_changeIds g1)
  · intro i hi
    obtain ⟨k, hk1, hk2⟩ := List.getElem_of_mem hi
    have hlt : k < cs.length := by rw [← h1]; exact hk1
    have hz : (ids.zip cs)[k]? = some (i, cs[k]) := by
      rw [List.getElem?_zip_eq_some]
      exact ⟨by rw [List.getElem?_eq_getElem hk1, hk2], List.getElem?_eq_getElem hlt⟩
    obtain ⟨call, r, u, g1, _, g3, g4⟩ := hx _ (List.mem_of_getElem? hz)
    exact ⟨call, r, u, g1, g3, g4⟩
  · simp only [seen] at h4
    cases hc : s.calls j with
    | none => simp [hc] at h4
    | some call =>
      simp only [hc, Option.map_some] at h4
      cases ha : call.answer with
      | none => simp [ha] at h4
      | some ru =>
        obtain ⟨r, u⟩ := ru
        simp only [ha, Bool.and_eq_true, decide_eq_true_eq] at h4
        obtain ⟨⟨k1, k2⟩, rfl⟩ := h4
        exact ⟨call, u, rfl, k1, k2, ha⟩

end BuilderUse

end Verif
