import Verif.Lemmas.LockedSteps

/-!
A label whose file is empty and that nobody is about to write cannot be used any more.
-/

namespace Verif

open Spec

variable {L : Type} [DecidableEq L]

namespace LockedLabels

set_option linter.unusedSectionVars false

open DirLabels (upd readResult setResult)

variable {s s' : LockedLabels L} {n : L} {x i : Nat} {old : Nat → Prop} {rl : Bool}
  {drops : Phase → Bool}

/-- A call in this phase does not write file `x` and has read nothing of it. -/
def Phase.harmless (x : Nat) : Phase → Prop
  | .made y | .truncating y | .writing y _ _ _ => y ≠ x
  | .reading y got => y = x → got = []
  | _ => True

/-- A call on a label with the empty file `x` can be in this phase. -/
def Lost (x : Nat) (c : LabelCall L LayerName) : Phase → Prop
  | .begun | .dropped => True
  | .waiting y => y = x ∧ ∀ n, c.op ≠ .create n
  | .reading y _ => y = x ∧ ∀ n, c.op ≠ .create n
  | .unlocking _ r => r = .unreadable ∧ ∀ n, c.op ≠ .create n
  | .returning r => r = .unreadable ∧ ∀ n, c.op ≠ .create n
  | .done => (c.answer.map (·.1) = some .unreadable ∧ ∀ n, c.op ≠ .create n) ∨
      (c.answer.map (·.1) = some .exists ∧ ∃ n, c.op = .create n)
  | .checked | .made _ | .truncating _ | .writing _ _ _ _ => False

/-- The label has an empty file that nobody is about to write. -/
structure Ruined (n : L) (x : Nat) (old : Nat → Prop) (s : LockedLabels L) : Prop where
  dir : s.dir n = some x
  data : s.data x = []
  below : x < s.next
  harmless : ∀ k, (s.phase k).harmless x
  lost : ∀ k c, ¬ old k → s.calls k = some c → c.op.name = n → Lost x c (s.phase k)

theorem Ruined.next (h : Ruined n x old s) {q : Phase} {c0 : LabelCall L LayerName}
    (hcalls : s'.calls = s.calls ∨ s'.calls = putCall s.calls i c0)
    (hp : s'.phase = upd s.phase i q) (hdir : s'.dir n = s.dir n) (hdata : s'.data x = s.data x)
    (hnext : s.next ≤ s'.next) (hq : q.harmless x)
    (hown : ∀ c, ¬ old i → s'.calls i = some c → c.op.name = n → Lost x c q) :
    Ruined n x old s' := by
  refine ⟨hdir.trans h.dir, hdata.trans h.data, Nat.lt_of_lt_of_le h.below hnext, ?_, ?_⟩
  · intro k
    rw [hp]
    by_cases e : k = i
    · rw [e, upd_same]
      exact hq
    · rw [upd_other _ _ e]
      exact h.harmless k
  · intro k c ho hc hn
    rw [hp]
    by_cases e : k = i
    · subst e
      rw [upd_same]
      exact hown c ho hc hn
    · rw [upd_other _ _ e]
      refine h.lost k c ho ?_ hn
      rcases hcalls with e' | e'
      · rw [← e']; exact hc
      · rw [e', putCall_other _ _ e] at hc
        exact hc

theorem Ruined.goto (h : Ruined n x old s) {q : Phase} (hcalls : s'.calls = s.calls)
    (hp : s'.phase = upd s.phase i q) (hdir : s'.dir n = s.dir n) (hdata : s'.data x = s.data x)
    (hnext : s.next ≤ s'.next) (hq : q.harmless x)
    (hown : ∀ c, s.calls i = some c → c.op.name = n → Lost x c (s.phase i) → Lost x c q) :
    Ruined n x old s' := by
  refine h.next (c0 := ⟨.get n, 0, none⟩) (Or.inl hcalls) hp hdir hdata hnext hq ?_
  intro c ho hc hn
  rw [hcalls] at hc
  exact hown c hc hn (h.lost i c ho hc hn)

theorem Ruined.answer (h : Ruined n x old s) {c : LabelCall L LayerName} {r : LabelRes LayerName}
    (hc : s.calls i = some c)
    (e1 : s'.calls = putCall s.calls i { c with answer := some (r, s.now) })
    (hp : s'.phase = upd s.phase i .done) (hdir : s'.dir n = s.dir n) (hdata : s'.data = s.data)
    (hnext : s'.next = s.next)
    (hown : c.op.name = n → Lost x c (s.phase i) →
      (r = .unreadable ∧ ∀ n, c.op ≠ .create n) ∨ (r = .exists ∧ ∃ n, c.op = .create n)) :
    Ruined n x old s' := by
  refine h.next (Or.inr e1) hp hdir (by rw [hdata]) (Nat.le_of_eq hnext.symm) trivial ?_
  intro c' ho hc' hn
  rw [e1, putCall_same] at hc'
  cases hc'
  rcases hown hn (h.lost i c ho hc hn) with ⟨h1, h2⟩ | ⟨h1, h2⟩
  · exact Or.inl ⟨by rw [h1]; rfl, h2⟩
  · exact Or.inr ⟨by rw [h1]; rfl, h2⟩

theorem Ruined.go (h : Ruined n x old s) (hg : Go rl i s s')
    (hd : ∀ k c, s.calls k = some c → c.op ≠ .delete n) : Ruined n x old s' := by
  have hh := h.harmless i
  have neg : ∀ {y got} {l : LabelData LayerName}, s.phase i = .reading y got →
      readLabelFile got = .ok l → y ≠ x := by
    intro y got l hp hr e
    rw [hp] at hh
    rw [hh e] at hr
    exact readLabelFile_nil l hr
  cases hg with
  | @openFile y c h1 h2 h3 h4 =>
    refine h.goto (q := .waiting _) rfl rfl rfl rfl (Nat.le_refl _) trivial ?_
    intro c' hc' hn _
    rw [h1] at hc'
    cases hc'
    rw [hn, h.dir] at h4
    cases h4
    refine ⟨rfl, fun m hm => ?_⟩
    rcases h3 with ⟨_, h3⟩ | ⟨_, _, _, h3⟩ <;> (rw [hm] at h3; cases h3)
  | @getMissing c m h1 h2 h3 h4 =>
    refine h.answer h1 rfl rfl rfl rfl rfl ?_
    intro hn
    rw [h3] at hn
    have hn : m = n := hn
    rw [hn, h.dir] at h4
    cases h4
  | @setMissing c m _ _ h1 h2 h3 h4 =>
    refine h.answer h1 rfl rfl rfl rfl rfl ?_
    intro hn
    rw [h3] at hn
    have hn : m = n := hn
    rw [hn, h.dir] at h4
    cases h4
  | lockToRead _ h1 h2 h3 =>
    refine h.goto (q := .reading _ []) rfl rfl rfl rfl (Nat.le_refl _) (fun _ => rfl) ?_
    intro c' _ _ hl
    rw [h2] at hl
    exact hl
  | doNotLock _ h1 h2 h3 =>
    refine h.goto (q := .reading _ []) rfl rfl rfl rfl (Nat.le_refl _) (fun _ => rfl) ?_
    intro c' _ _ hl
    rw [h2] at hl
    exact hl
  | lockToWrite h1 h2 h3 =>
    refine h.goto (q := .reading _ []) rfl rfl rfl rfl (Nat.le_refl _) (fun _ => rfl) ?_
    intro c' _ _ hl
    rw [h2] at hl
    exact hl
  | @readSome y k got h2 hl =>
    refine h.goto (q := .reading _ _) rfl rfl rfl rfl (Nat.le_refl _) ?_ ?_
    · intro e
      rw [e, h.data] at hl
      exact absurd hl (Nat.not_lt_zero _)
    · intro c' _ _ hl
      rw [h2] at hl
      exact hl
  | @readEnd y got c m h1 h2 h3 h4 =>
    refine h.goto (q := .unlocking _ _) rfl rfl rfl rfl (Nat.le_refl _) trivial ?_
    intro c' _ _ hl
    rw [h2] at hl hh
    refine ⟨?_, hl.2⟩
    rw [hh hl.1]
    decide
  | same h1 h2 h3 h4 h5 =>
    have hy := neg h2 h5
    refine h.goto (q := .truncating _) rfl rfl rfl rfl (Nat.le_refl _) hy ?_
    intro c' _ _ hl
    rw [h2] at hl
    exact absurd hl.1 hy
  | different h1 h2 h3 h4 h5 =>
    have hy := neg h2 h5
    refine h.goto (q := .unlocking _ _) rfl rfl rfl rfl (Nat.le_refl _) trivial ?_
    intro c' _ _ hl
    rw [h2] at hl
    exact absurd hl.1 hy
  | broken h1 h2 h3 h4 h5 =>
    refine h.goto (q := .unlocking _ _) rfl rfl rfl rfl (Nat.le_refl _) trivial ?_
    intro c' _ _ hl
    rw [h2] at hl
    exact ⟨rfl, hl.2⟩
  | @truncate y c m _ _ h1 h2 h3 =>
    rw [h2] at hh
    refine h.goto (q := .writing _ _ _ _) rfl rfl rfl ?_ (Nat.le_refl _) hh ?_
    · exact upd_other _ _ (fun e => hh e.symm)
    · intro c' _ _ hl
      rw [h2] at hl
      exact hl.elim
  | writeSome h2 _ =>
    rw [h2] at hh
    refine h.goto (q := .writing _ _ _ _) rfl rfl rfl ?_ (Nat.le_refl _) hh ?_
    · exact upd_other _ _ (fun e => hh e.symm)
    · intro c' _ _ hl
      rw [h2] at hl
      exact hl.elim
  | writeEnd h2 =>
    refine h.goto (q := .unlocking _ _) rfl rfl rfl rfl (Nat.le_refl _) trivial ?_
    intro c' _ _ hl
    rw [h2] at hl
    exact hl.elim
  | unlock h2 =>
    refine h.goto (q := .returning _) rfl rfl rfl rfl (Nat.le_refl _) trivial ?_
    intro c' _ _ hl
    rw [h2] at hl
    exact hl
  | finish h1 h2 =>
    refine h.answer h1 rfl rfl rfl rfl rfl ?_
    intro _ hl
    rw [h2] at hl
    exact Or.inl hl
  | @check c m h1 h2 h3 h4 =>
    refine h.goto (q := .checked) rfl rfl rfl rfl (Nat.le_refl _) trivial ?_
    intro c' hc' hn _
    rw [h1] at hc'
    cases hc'
    rw [h3] at hn
    have hn : m = n := hn
    rw [hn, h.dir] at h4
    cases h4
  | createExists h1 h2 h3 h4 =>
    exact h.answer h1 rfl rfl rfl rfl rfl (fun _ _ => Or.inr ⟨rfl, _, h3⟩)
  | @make c m h1 h2 h3 h4 =>
    have hm : m ≠ n := by
      rintro rfl
      rw [h.dir] at h4
      cases h4
    have hx : x ≠ s.next := Nat.ne_of_lt h.below
    refine h.goto (q := .made _) rfl rfl ?_ ?_ (Nat.le_succ _) (fun e => hx e.symm) ?_
    · exact upd_other _ _ (fun e => hm e.symm)
    · exact upd_other _ _ hx
    · intro c' hc' hn _
      rw [h1] at hc'
      cases hc'
      rw [h3] at hn
      exact absurd hn hm
  | lockMade h2 h4 h5 =>
    rw [h2] at hh
    refine h.goto (q := .writing _ _ _ _) rfl rfl rfl rfl (Nat.le_refl _) hh ?_
    intro c' _ _ hl
    rw [h2] at hl
    exact hl.elim
  | @unlink c m h1 h2 h3 =>
    have hm : m ≠ n := by
      rintro rfl
      exact hd i c h1 h3
    refine h.answer h1 rfl rfl ?_ rfl rfl ?_
    · exact upd_other _ _ (fun e => hm e.symm)
    · intro hn
      rw [h3] at hn
      exact absurd hn hm

theorem Ruined.step (h : Ruined n x old s) (hs : Step rl drops s s')
    (hd : ∀ k c, s.calls k = some c → c.op ≠ .delete n) : Ruined n x old s' := by
  cases hs with
  | @start i op h1 h2 =>
    exact h.next (q := .begun) (Or.inr rfl) rfl rfl rfl (Nat.le_refl _) trivial
      (fun _ _ _ _ => trivial)
  | go hg => exact h.go hg hd
  | drop h1 h2 h3 =>
    exact h.goto (q := .dropped) rfl rfl rfl rfl (Nat.le_refl _) trivial (fun _ _ _ _ => trivial)
  | @dropDelete i c m h1 h2 h3 =>
    refine h.goto (q := .dropped) rfl rfl ?_ rfl (Nat.le_refl _) trivial (fun _ _ _ _ => trivial)
    refine upd_other _ _ ?_
    rintro rfl
    exact hd i c h1 h3

/-- Calls stay what they are. -/
theorem Step.kept (hs : Step rl drops s s') {k : Nat} {c : LabelCall L LayerName}
    (hc : s.calls k = some c) : ∃ c', s'.calls k = some c' ∧ c'.op = c.op := by
  have ans : ∀ i c0 r t, s.calls i = some c0 →
      ∃ c', putCall s.calls i { c0 with answer := some (r, t) } k = some c' ∧ c'.op = c.op := by
    intro i c0 r t h0
    by_cases e : k = i
    · subst e
      rw [hc] at h0
      cases h0
      exact ⟨_, putCall_same _ _ _, rfl⟩
    · exact ⟨c, by rw [putCall_other _ _ e]; exact hc, rfl⟩
  cases hs with
  | @start i op h1 h2 =>
    refine ⟨c, ?_, rfl⟩
    show putCall _ i _ k = _
    rw [putCall_other]
    · exact hc
    · rintro rfl
      rw [hc] at h1
      cases h1
  | drop h1 h2 h3 => exact ⟨c, hc, rfl⟩
  | dropDelete => exact ⟨c, hc, rfl⟩
  | go hg =>
    cases hg with
    | getMissing h1 => exact ans _ _ _ _ h1
    | setMissing h1 => exact ans _ _ _ _ h1
    | finish h1 => exact ans _ _ _ _ h1
    | createExists h1 => exact ans _ _ _ _ h1
    | unlink h1 => exact ans _ _ _ _ h1
    | openFile => exact ⟨c, hc, rfl⟩
    | lockToRead => exact ⟨c, hc, rfl⟩
    | doNotLock => exact ⟨c, hc, rfl⟩
    | lockToWrite => exact ⟨c, hc, rfl⟩
    | readSome => exact ⟨c, hc, rfl⟩
    | readEnd => exact ⟨c, hc, rfl⟩
    | same => exact ⟨c, hc, rfl⟩
    | different => exact ⟨c, hc, rfl⟩
    | broken => exact ⟨c, hc, rfl⟩
    | truncate => exact ⟨c, hc, rfl⟩
    | writeSome => exact ⟨c, hc, rfl⟩
    | writeEnd => exact ⟨c, hc, rfl⟩
    | unlock => exact ⟨c, hc, rfl⟩
    | check => exact ⟨c, hc, rfl⟩
    | make => exact ⟨c, hc, rfl⟩
    | lockMade => exact ⟨c, hc, rfl⟩

theorem Ruined.later (h : Ruined n x old s) (hl : Later rl drops s s')
    (hd : ∀ k c, s'.calls k = some c → c.op ≠ .delete n) : Ruined n x old s' := by
  induction hl with
  | now => exact h
  | @step s1 s2 _ hs ih =>
    have hd' : ∀ k c, s1.calls k = some c → c.op ≠ .delete n := fun k c hc => by
      obtain ⟨c', h1, h2⟩ := hs.kept (k := k) hc
      rw [← h2]
      exact hd k c' h1
    exact (ih hd').step hs hd'

end LockedLabels

end Verif
