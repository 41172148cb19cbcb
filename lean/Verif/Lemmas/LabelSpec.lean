import Verif.LabelSpec

/-!
Lemmas about the map of labels and lists of events.
-/

namespace Verif.Spec

set_option linter.unusedSectionVars false

variable {L N : Type} [DecidableEq L] {same : LabelData N → LabelData N → Bool}

theorem put_same (m : Labels L N) (n : L) (l : Option (LabelData N)) : m.put n l n = l := by
  simp [Labels.put]

theorem put_other (m : Labels L N) {n k : L} (l : Option (LabelData N)) (h : k ≠ n) :
    m.put n l k = m k := by
  simp [Labels.put, h]

theorem put_put (m : Labels L N) (n : L) (a b : Option (LabelData N)) :
    (m.put n a).put n b = m.put n b := by
  funext k
  simp only [Labels.put]
  split <;> rfl

theorem put_self (m : Labels L N) (n : L) {l : Option (LabelData N)} (h : m n = l) :
    m.put n l = m := by
  funext k
  simp only [Labels.put]
  split
  · rename_i e
    rw [e, h]
  · rfl

/-- A call changes at most the label it is about. -/
theorem callOn_state (m : Labels L N) (op : LabelOp L N) :
    (callOn same m op).2 = m.put op.name ((callOn same m op).2 op.name) := by
  cases op with
  | create n =>
    simp only [callOn, LabelOp.name]
    split
    · exact (put_self m n rfl).symm
    · simp only [put_same]
  | get n => exact (put_self m n rfl).symm
  | set n old layer =>
    simp only [callOn, LabelOp.name]
    split
    · exact (put_self m n rfl).symm
    · split
      · simp only [put_same]
      · exact (put_self m n rfl).symm
  | delete n => simp only [callOn, LabelOp.name, put_same]

theorem callOn_other (m : Labels L N) (op : LabelOp L N) {k : L} (h : k ≠ op.name) :
    (callOn same m op).2 k = m k := by
  rw [callOn_state]
  exact put_other _ _ h

/-- Answers and effects only depend on the label the call is about. -/
theorem callOn_congr {m m' : Labels L N} (op : LabelOp L N) (h : m op.name = m' op.name) :
    (callOn same m op).1 = (callOn same m' op).1 ∧
      (callOn same m op).2 op.name = (callOn same m' op).2 op.name := by
  cases op with
  | create n =>
    simp only [LabelOp.name] at h
    simp only [callOn, LabelOp.name, h]
    cases e : m' n <;> simp [put_same, h, e]
  | get n =>
    simp only [LabelOp.name] at h
    simp [callOn, LabelOp.name, h]
  | set n old layer =>
    simp only [LabelOp.name] at h
    simp only [callOn, LabelOp.name, h]
    cases e : m' n with
    | none => simp [h, e]
    | some cur =>
      simp only
      split <;> simp [put_same, h, e]
  | delete n =>
    simp only [LabelOp.name] at h
    simp [callOn, LabelOp.name, h, put_same]

/-- The map has no unreadable labels. -/
theorem callOn_readable (m : Labels L N) (op : LabelOp L N) :
    (callOn same m op).1 ≠ .unreadable := by
  cases op with
  | create n =>
    simp only [callOn]
    split <;> simp
  | get n => simp [callOn]
  | set n old layer =>
    simp only [callOn]
    split
    · simp
    · split <;> simp
  | delete n => simp [callOn]

theorem stored_append (m : Labels L N) (A B : List (LabelEvent L N)) :
    stored same m (A ++ B) = stored same (stored same m A) B := by
  induction A generalizing m with
  | nil => rfl
  | cons e A ih => exact ih _

theorem answered_append (m : Labels L N) (A B : List (LabelEvent L N)) :
    Answered same m (A ++ B) ↔ Answered same m A ∧ Answered same (stored same m A) B := by
  induction A generalizing m with
  | nil => simp [Answered, stored]
  | cons e A ih =>
    simp only [List.cons_append, Answered, stored, ih, and_assoc]

/-- Events about other labels do not matter. -/
theorem stored_other (m : Labels L N) (A : List (LabelEvent L N)) {n : L}
    (h : ∀ e ∈ A, e.op.name ≠ n) : stored same m A n = m n := by
  induction A generalizing m with
  | nil => rfl
  | cons e A ih =>
    rw [stored, ih _ (fun x hx => h x (by simp [hx]))]
    exact callOn_other _ _ (h e (by simp)).symm

theorem stored_congr {m m' : Labels L N} (A : List (LabelEvent L N)) {n : L} (h : m n = m' n) :
    stored same m A n = stored same m' A n := by
  induction A generalizing m m' with
  | nil => exact h
  | cons e A ih =>
    apply ih
    by_cases he : n = e.op.name
    · subst he
      exact (callOn_congr e.op h).2
    · rw [callOn_other _ _ he, callOn_other _ _ he, h]

theorem stored_filter (m : Labels L N) (A : List (LabelEvent L N)) (n : L) :
    stored same m A n = stored same m (A.filter (fun e => decide (e.op.name = n))) n := by
  induction A generalizing m with
  | nil => rfl
  | cons e A ih =>
    by_cases he : e.op.name = n
    · rw [List.filter_cons_of_pos (by simpa using he)]
      exact ih _
    · rw [List.filter_cons_of_neg (by simpa using he), stored, ih]
      exact stored_congr _ (callOn_other _ _ (fun h => he h.symm))

theorem answered_congr_filter {m m' : Labels L N} (A : List (LabelEvent L N)) (n : L)
    (hm : m n = m' n) (h : Answered same m A) :
    Answered same m' (A.filter (fun e => decide (e.op.name = n))) := by
  induction A generalizing m m' with
  | nil => trivial
  | cons e A ih =>
    by_cases he : e.op.name = n
    · rw [List.filter_cons_of_pos (by simpa using he)]
      subst he
      obtain ⟨c1, c2⟩ := callOn_congr (same := same) e.op hm
      exact ⟨h.1.trans c1, ih c2 h.2⟩
    · rw [List.filter_cons_of_neg (by simpa using he)]
      refine ih ?_ h.2
      rw [callOn_other _ _ (fun h => he h.symm), hm]

/-- An event about a label that exists and goes on to exist may be put in before the label
is deleted. -/
theorem insert_before_delete {m : Labels L N} {A B : List (LabelEvent L N)} {d e : LabelEvent L N}
    {n : L} {l l' : LabelData N} (hd : d.op = .delete n) (hG : Answered same m (A ++ d :: B))
    (hl : stored same m A n = some l) (he : e.op.name = n)
    (hl' : (callOn same (stored same m A) e.op).2 n = some l')
    (hr : e.res = (callOn same (stored same m A) e.op).1) :
    Answered same m (A ++ e :: d :: B) ∧
      stored same m (A ++ [e, d]) = stored same m (A ++ [d]) := by
  have key : (callOn same (callOn same (stored same m A) e.op).2 d.op).2 =
      (callOn same (stored same m A) d.op).2 := by
    rw [callOn_state (stored same m A) e.op, he, hd]
    simp only [callOn]
    rw [put_put]
  have kres : (callOn same (callOn same (stored same m A) e.op).2 d.op).1 =
      (callOn same (stored same m A) d.op).1 := by
    rw [hd]
    show LabelRes.deleted _ = LabelRes.deleted _
    rw [hl, hl']
    rfl
  constructor
  · rw [answered_append] at hG ⊢
    refine ⟨hG.1, hr, ?_, ?_⟩
    · rw [kres]
      exact hG.2.1
    · rw [key]
      exact hG.2.2
  · rw [stored_append, stored_append]
    exact key

/-- Versions only grow while a label is not deleted, and the label is the same while the
version is. -/
theorem version_grows (hsame : ∀ a b, same a b = true → a.version = b.version) {m : Labels L N}
    {n : L} {l : LabelData N} (hl : m n = some l) (C : List (LabelEvent L N))
    (hC : ∀ e ∈ C, e.op ≠ .delete n) :
    ∃ l', stored same m C n = some l' ∧ l.version ≤ l'.version ∧
      (l'.version = l.version → l' = l ∧ ∀ A B, C = A ++ B → stored same m A n = some l) := by
  induction C generalizing m l with
  | nil => exact ⟨l, hl, Nat.le_refl _, fun _ => ⟨rfl, fun A B h => by
      have : A = [] := by
        cases A with
        | nil => rfl
        | cons a A => simp at h
      subst this
      exact hl⟩⟩
  | cons e C ih =>
    have step : ∃ k, (callOn same m e.op).2 n = some k ∧ l.version ≤ k.version ∧
        (k.version = l.version → k = l) := by
      by_cases he : e.op.name = n
      · have hde := hC e (by simp)
        cases ho : e.op with
        | create k =>
          rw [ho] at he
          simp only [LabelOp.name] at he
          subst he
          simp [callOn, hl]
        | get k => exact ⟨l, by simpa [callOn] using hl, Nat.le_refl _, fun _ => rfl⟩
        | set k old layer =>
          rw [ho] at he
          simp only [LabelOp.name] at he
          subst he
          simp only [callOn, hl]
          split
          · rename_i hs
            have := hsame _ _ hs
            refine ⟨_, put_same _ _ _, ?_, ?_⟩ <;> simp only [updated] <;> omega
          · exact ⟨l, hl, Nat.le_refl _, fun _ => rfl⟩
        | delete k =>
          rw [ho] at he hde
          simp only [LabelOp.name] at he
          subst he
          exact absurd rfl hde
      · refine ⟨l, ?_, Nat.le_refl _, fun _ => rfl⟩
        rw [callOn_other _ _ (fun h => he h.symm), hl]
    obtain ⟨k, hk, k1, k2⟩ := step
    obtain ⟨l', h1, h2, h3⟩ := ih hk (fun x hx => hC x (by simp [hx]))
    refine ⟨l', h1, by omega, fun hv => ?_⟩
    have hkl := k2 (by omega)
    subst hkl
    obtain ⟨h4, h5⟩ := h3 hv
    refine ⟨h4, fun A B hAB => ?_⟩
    cases A with
    | nil => exact hl
    | cons a A =>
      rw [List.cons_append, List.cons.injEq] at hAB
      obtain ⟨rfl, hAB⟩ := hAB
      exact h5 A B hAB

/-- A label that was deleted and not created again is not there. -/
theorem stored_none {m : Labels L N} {n : L} (hm : m n = none) (C : List (LabelEvent L N))
    (hC : ∀ e ∈ C, e.op ≠ .create n) : stored same m C n = none := by
  induction C generalizing m with
  | nil => exact hm
  | cons e C ih =>
    apply ih _ (fun x hx => hC x (by simp [hx]))
    by_cases he : e.op.name = n
    · have hde := hC e (by simp)
      cases ho : e.op with
      | create k =>
        rw [ho] at he hde
        simp only [LabelOp.name] at he
        subst he
        exact absurd rfl hde
      | get k => simpa [callOn] using hm
      | set k old layer =>
        rw [ho] at he
        simp only [LabelOp.name] at he
        subst he
        simp [callOn, hm]
      | delete k =>
        rw [ho] at he
        simp only [LabelOp.name] at he
        subst he
        simp [callOn, put_same]
    · rw [callOn_other _ _ (fun h => he h.symm), hm]

/-- There is one event of each call. -/
theorem event_inj {G : List (LabelEvent L N)} (h : G.Pairwise (fun a b => a.id ≠ b.id))
    {a b : LabelEvent L N} (ha : a ∈ G) (hb : b ∈ G) (hid : a.id = b.id) : a = b := by
  induction h with
  | nil => cases ha
  | cons h1 _ ih =>
    rcases List.mem_cons.1 ha with rfl | ha'
    · rcases List.mem_cons.1 hb with rfl | hb
      · rfl
      · exact absurd hid (h1 b hb)
    · rcases List.mem_cons.1 hb with rfl | hb
      · exact absurd hid.symm (h1 a ha')
      · exact ih ha' hb

end Verif.Spec
