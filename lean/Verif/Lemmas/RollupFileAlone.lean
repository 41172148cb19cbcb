import Verif.Lemmas.RollupFile

/-!
Calls with rollup files of a directory store that are read and written in pieces of any size: how many
steps they take, and what they do if no other rollup of the layer is registered meanwhile.
-/

namespace Verif

open Spec

namespace RollupFile

open LockedLabels (writeAt readAt)
open LockedRollups (upd upd_same upd_other)

variable {trunc : Bool} {P : RollupOp LayerName → Prop} {i : Nat} {n r : LayerName}
variable {s s' : RollupFile} {k : Nat}

/-- What a step of another call leaves as it is. -/
theorem next_frame {j q : Nat} {c : RC} (h : next trunc s j q c = some s') :
    (∀ x, x ≠ j → s'.calls x = s.calls x ∧ s'.phase x = s.phase x) ∧
    (∀ n, (∀ r, c.op ≠ .set n r) → s'.file n = s.file n) := by
  have file : ∀ (n m : LayerName) (r : LayerName) (b : Bytes) (p : Phase), c.op = .set n r →
      (∀ r, c.op ≠ .set m r) → ((s.putFile n b).goto j p).file m = s.file m := by
    intro n m r b p ho hm
    refine upd_other _ _ (fun e => ?_)
    subst e
    exact hm r ho
  unfold next at h
  cases hp : s.phase j <;> cases ho : c.op <;> rw [hp, ho] at h <;> simp only at h
  all_goals first
    | (cases h; done)
    | (cases h
       refine ⟨fun x hx => ⟨rfl, upd_other _ _ hx⟩, fun _ _ => rfl⟩)
    | (cases h
       refine ⟨fun x hx => ⟨rfl, upd_other _ _ hx⟩, fun m hm => ?_⟩
       exact file _ m _ _ _ ho (ho ▸ hm))
    | (cases h
       refine ⟨fun x hx => ⟨upd_other _ _ hx, upd_other _ _ hx⟩, fun _ _ => rfl⟩)
    | skip
  all_goals
    split at h
    all_goals
      cases h
      first
        | exact ⟨fun x hx => ⟨rfl, upd_other _ _ hx⟩, fun _ _ => rfl⟩
        | exact ⟨fun x hx => ⟨rfl, upd_other _ _ hx⟩, fun m hm => file _ m _ _ _ ho (ho ▸ hm)⟩

/-- Files are no longer than 43 bytes, and so is what is written of them. -/
structure Short (s : RollupFile) : Prop where
  file : ∀ n b, s.file n = some b → b.length ≤ 43
  writing : ∀ j pos rest, s.phase j = .writing pos rest → pos + rest.length = 43
  got : ∀ j b, s.phase j = .got b → b.length ≤ 43

theorem writeAt_length_le {old b : Bytes} {pos N : Nat} (h : old.length ≤ N) (h1 : pos + b.length ≤ N) :
    (writeAt old pos b).length ≤ N := by
  unfold LockedLabels.writeAt
  simp only [List.length_append, List.length_take, List.length_replicate, List.length_drop]
  omega

theorem Short.putFile {b : Bytes} (h : Short s) (hb : b.length ≤ 43) : Short (s.putFile n b) where
  file m b' hm := by
    replace hm : upd s.file n (some b) m = some b' := hm
    by_cases e : m = n
    · rw [e, upd_same] at hm; cases hm; exact hb
    · rw [upd_other _ _ e] at hm; exact h.file m b' hm
  writing := h.writing
  got := h.got

theorem Short.goto {p : Phase} (h : Short s)
    (hw : ∀ pos rest, p = .writing pos rest → pos + rest.length = 43)
    (hg : ∀ b, p = .got b → b.length ≤ 43) : Short (s.goto i p) where
  file := h.file
  writing j pos rest hp := by
    replace hp : upd s.phase i p j = .writing pos rest := hp
    by_cases e : j = i
    · rw [e, upd_same] at hp; exact hw pos rest hp
    · rw [upd_other _ _ e] at hp; exact h.writing j pos rest hp
  got j b hp := by
    replace hp : upd s.phase i p j = .got b := hp
    by_cases e : j = i
    · rw [e, upd_same] at hp; exact hg b hp
    · rw [upd_other _ _ e] at hp; exact h.got j b hp

theorem Short.getD (h : Short s) (n : LayerName) : ((s.file n).getD []).length ≤ 43 := by
  cases hf : s.file n with
  | none => exact Nat.zero_le _
  | some b => exact h.file n b hf

theorem readAt_length_le (b : Bytes) (pos q : Nat) : (readAt b pos q).length ≤ b.length - pos := by
  unfold LockedLabels.readAt
  rw [List.length_take, List.length_drop]
  exact Nat.min_le_right _ _

theorem Short.next {j q : Nat} {c : RC} (v : Short s) (h : next trunc s j q c = some s') : Short s' := by
  have nw : ∀ {p : Phase}, (∀ pos rest, p ≠ .writing pos rest) →
      ∀ pos rest, p = .writing pos rest → pos + rest.length = 43 := fun h pos rest e => absurd e (h _ _)
  have ng : ∀ {p : Phase}, (∀ b, p ≠ .got b) → ∀ b, p = .got b → b.length ≤ 43 :=
    fun h b e => absurd e (h _)
  unfold RollupFile.next at h
  cases hp : s.phase j <;> cases ho : c.op <;> rw [hp, ho] at h <;> simp only at h
  case begun.get n =>
    split at h <;> cases h <;> exact v.goto (nw (by simp)) (ng (by simp))
  case begun.set n r =>
    cases h
    refine (v.putFile ?_).goto (fun pos rest e => ?_) (ng (by simp))
    · split
      · exact Nat.zero_le _
      · exact v.getD n
    · cases e
      rw [rollupFile_length]
  case opened.get n =>
    cases h
    refine v.goto (nw (by simp)) (fun b e => ?_)
    cases e
    exact Nat.le_trans (readAt_length_le _ _ _) (v.getD n)
  case got.get b n =>
    have := v.getD n
    split at h <;> cases h
    · refine v.goto (nw (by simp)) (fun b' e => ?_)
      cases e
      have := readAt_length_le ((s.file n).getD []) b.length q
      rw [List.length_append]
      omega
    · exact v.goto (nw (by simp)) (ng (by simp))
  case writing.set pos rest n r =>
    have hw := v.writing j pos rest hp
    split at h <;> cases h
    · exact v.goto (nw (by simp)) (ng (by simp))
    · refine (v.putFile ?_).goto (fun pos' rest' e => ?_) (ng (by simp))
      · refine writeAt_length_le (v.getD n) ?_
        rw [List.length_take]
        omega
      · cases e
        rw [List.length_take, List.length_drop]
        omega
  all_goals
    cases h
    try exact ⟨v.file, (v.goto (i := j) (p := .done) (nw (by simp)) (ng (by simp))).writing,
      (v.goto (i := j) (p := .done) (nw (by simp)) (ng (by simp))).got⟩

theorem Short.start {op : RollupOp LayerName} (v : Short s) :
    Short { s with calls := upd s.calls i (some ⟨op, s.now, none⟩)
                   phase := upd s.phase i .begun
                   now := s.now + 1 } :=
  ⟨v.file, (v.goto (i := i) (p := .begun) (fun _ _ e => by cases e) (fun _ e => by cases e)).writing,
    (v.goto (i := i) (p := .begun) (fun _ _ e => by cases e) (fun _ e => by cases e)).got⟩

theorem Run.short {whole : Bool} (h : Run trunc whole s) : Short s := by
  induction h with
  | start => exact ⟨fun _ _ h => (nomatch h), fun _ _ _ h => (nomatch h), fun _ _ h => (nomatch h)⟩
  | step _ hs ih =>
    cases hs with
    | start _ => exact ih.start
    | go _ _ hn => exact ih.next hn

theorem Walk.short (h : Walk trunc P i s s' k) (v : Short s) : Short s' := by
  induction h with
  | refl => exact v
  | own _ _ hn ih => exact ih.next hn
  | start _ _ ih => exact ih.start
  | other _ _ _ _ hn ih => exact ih.next hn

/-- How many steps a call may still take. -/
def left : Phase → Nat
  | .begun => 47
  | .opened => 46
  | .got b => 45 - b.length
  | .writing _ rest => rest.length + 2
  | .returning _ => 1
  | .done => 0

theorem readAt_pos {b : Bytes} {pos q : Nat} (h : pos < b.length) : 0 < (readAt b pos q).length := by
  unfold LockedLabels.readAt
  rw [List.length_take, List.length_drop]
  omega

theorem left_next {q : Nat} {c : RC} (v : Short s) (h : next trunc s i q c = some s') :
    left (s'.phase i) < left (s.phase i) := by
  have gt : ∀ (s0 : RollupFile) (p : Phase), (s0.goto i p).phase i = p := fun s0 p => upd_same _ _ _
  unfold RollupFile.next at h
  cases hp : s.phase i <;> cases ho : c.op <;> rw [hp, ho] at h <;> simp only at h
  case begun.get n =>
    split at h <;> cases h <;> rw [gt] <;> simp [left]
  case begun.set n r =>
    cases h
    rw [gt]
    simp [left, rollupFile_length]
  case opened.get n =>
    cases h
    rw [gt]
    simp only [left]
    omega
  case got.get b n =>
    have h1 := v.getD n
    have h2 := v.got i b hp
    split at h <;> cases h <;> rw [gt] <;> simp only [left]
    · rename_i hlt
      have := readAt_pos (q := q) hlt
      rw [List.length_append]
      omega
    · omega
  case writing.set pos rest n r =>
    split at h <;> cases h <;> rw [gt] <;> simp only [left]
    · omega
    · rename_i hne
      have : 0 < rest.length := List.length_pos_of_ne_nil hne
      rw [List.length_drop]
      omega
  all_goals
    cases h
    try (show left (upd s.phase i .done i) < _
         rw [upd_same]
         simp [left])

theorem Walk.left (h : Walk trunc P i s s' k) (v : Short s) {c : RC} (hc : s.calls i = some c) :
    (∃ c', s'.calls i = some c') ∧ k + left (s'.phase i) ≤ left (s.phase i) := by
  induction h with
  | refl => exact ⟨⟨c, hc⟩, by omega⟩
  | own hw hi hn ih =>
    obtain ⟨ih1, ih2⟩ := ih
    refine ⟨?_, ?_⟩
    · unfold RollupFile.next at hn
      rename_i s1 s2 k q c1
      cases hp : s1.phase i <;> cases ho : c1.op <;> rw [hp, ho] at hn <;> simp only at hn
      all_goals first
        | (cases hn; exact ih1)
        | (cases hn; exact ⟨_, upd_same _ _ _⟩)
        | (split at hn <;> cases hn <;> exact ih1)
        | cases hn
    · have := left_next (hw.short v) hn
      omega
  | @start s1 k j op hw hj ih =>
    obtain ⟨⟨c', hc'⟩, ih2⟩ := ih
    have e : i ≠ j := fun e => by rw [← e, hc'] at hj; cases hj
    refine ⟨⟨c', (upd_other _ _ e).trans hc'⟩, ?_⟩
    show k + RollupFile.left (upd _ j .begun i) ≤ _
    rw [upd_other _ _ e]
    exact ih2
  | other _ hj _ _ hn ih =>
    obtain ⟨⟨c', hc'⟩, ih2⟩ := ih
    obtain ⟨h1, h2⟩ := (next_frame hn).1 i (Ne.symm hj)
    exact ⟨⟨c', h1.trans hc'⟩, by rw [h2]; exact ih2⟩

/-! ### Calls can go on -/

/-- The phases of a call are those of its kind. -/
def Fits (s : RollupFile) (i : Nat) (c : RC) : Prop :=
  match s.phase i, c.op with
  | .begun, _ => c.answer = none
  | .opened, .get _ => True
  | .got _, .get _ => True
  | .writing _ _, .set _ _ => True
  | .returning _, .get _ => True
  | .returning _, .set _ _ => True
  | .done, _ => c.answer ≠ none
  | _, _ => False

theorem Fits.same {c : RC} (h : Fits s i c) (e : s'.phase i = s.phase i) : Fits s' i c := by
  unfold Fits at h ⊢
  rw [e]
  exact h

theorem fits_next {q : Nat} {c c' : RC} (hc : s.calls i = some c) (h : next trunc s i q c = some s')
    (hc' : s'.calls i = some c') : Fits s' i c' := by
  have gt : ∀ (s0 : RollupFile) (p : Phase), (s0.goto i p).phase i = p := fun s0 p => upd_same _ _ _
  have gc : s.calls i = some c' → c' = c := fun h => by rw [hc] at h; cases h; rfl
  unfold RollupFile.next at h
  cases hp : s.phase i <;> cases ho : c.op <;> rw [hp, ho] at h <;> simp only at h
  case returning.get | returning.set | returning.store =>
    cases h
    replace hc' : upd s.calls i _ i = some c' := hc'
    rw [upd_same] at hc'; cases hc'
    unfold Fits
    dsimp only
    rw [show upd s.phase i .done i = Phase.done from upd_same _ _ _]
    simp
  all_goals first
    | (cases h; done)
    | skip
  all_goals
    try split at h
    all_goals
      cases h
      cases gc hc'
      unfold Fits
      rw [gt, ho]
      trivial

theorem Run.fits {whole : Bool} (h : Run trunc whole s) {c : RC} (hc : s.calls i = some c) :
    Fits s i c := by
  induction h generalizing i c with
  | start => cases hc
  | step _ hs ih =>
    cases hs with
    | @start j op hj =>
      by_cases e : i = j
      · subst e
        replace hc : upd _ i _ i = some c := hc
        rw [upd_same] at hc; cases hc
        unfold Fits
        dsimp only
        rw [show upd _ i Phase.begun i = Phase.begun from upd_same _ _ _]
      · replace hc : upd _ j _ i = some c := hc
        rw [upd_other _ _ e] at hc
        exact (ih hc).same (upd_other _ _ e)
    | @go s2 j q d hj _ hn =>
      by_cases e : i = j
      · subst e
        exact fits_next hj hn hc
      · obtain ⟨h1, h2⟩ := (next_frame hn).1 i e
        rw [h1] at hc
        exact (ih hc).same h2

theorem Fits.go {c : RC} (h : Fits s i c) (ha : c.answer = none) (ho : ∀ n, c.op ≠ .store n) (q : Nat) :
    ∃ s', next trunc s i q c = some s' := by
  unfold Fits at h
  unfold RollupFile.next
  cases hp : s.phase i <;> cases he : c.op <;> rw [hp, he] at h <;> simp only at h ⊢
  all_goals first
    | exact absurd he (ho _)
    | exact absurd ha h
    | exact ⟨_, rfl⟩
    | exact h.elim
    | (split <;> exact ⟨_, rfl⟩)

/-! ### Calls that are not disturbed -/

/-- What a call that looks for a rollup returns if this is the file. -/
def told : Option Bytes → RollupRes LayerName
  | none => .got none
  | some b => result b

/-- Where a call that reads can be when nobody writes. -/
def ReadingAt (o : Option Bytes) (c : RC) : Phase → Prop
  | .begun => c.answer = none
  | .opened => c.answer = none ∧ ∃ all, o = some all
  | .got b => c.answer = none ∧ ∃ all, o = some all ∧ b = all.take b.length
  | .returning a => c.answer = none ∧ a = told o
  | .done => ∃ t, c.answer = some (told o, t)
  | _ => False

/-- A call that reads, when nobody writes. -/
def Reading (o : Option Bytes) (s : RollupFile) (n : LayerName) (i : Nat) : Prop :=
  s.file n = o ∧ ∃ c, s.calls i = some c ∧ c.op = .get n ∧ ReadingAt o c (s.phase i)

theorem Reading.own {o : Option Bytes} {q : Nat} {c : RC} (v : Reading o s n i) (hc : s.calls i = some c)
    (h : next trunc s i q c = some s') : Reading o s' n i := by
  obtain ⟨hf, c', hc', ho, hp⟩ := v
  rw [hc] at hc'; cases hc'
  have mk : ∀ p : Phase, ReadingAt o c p → Reading o (s.goto i p) n i := by
    intro p h
    refine ⟨hf, c, hc, ho, ?_⟩
    rw [show (s.goto i p).phase i = p from upd_same _ _ _]
    exact h
  unfold RollupFile.next at h
  cases hph : s.phase i <;> rw [hph] at hp <;> rw [hph, ho] at h <;> simp only [ReadingAt] at h hp
  case begun =>
    rw [hf] at h
    split at h <;> cases h
    · exact mk _ ⟨hp, rfl⟩
    · exact mk _ ⟨hp, _, rfl⟩
  case opened =>
    obtain ⟨ha, all, rfl⟩ := hp
    cases h
    refine mk _ ⟨ha, all, rfl, ?_⟩
    rw [hf]
    unfold LockedLabels.readAt
    rw [Option.getD_some, List.drop_zero, List.length_take, List.take_eq_take_iff]
    omega
  case got b =>
    obtain ⟨ha, all, rfl, hb⟩ := hp
    rw [hf, Option.getD_some] at h
    split at h <;> cases h
    · refine mk _ ⟨ha, all, rfl, ?_⟩
      unfold LockedLabels.readAt
      rw [List.length_append, List.take_add (i := b.length), ← hb]
      congr 1
      rw [List.take_eq_take_iff, List.length_take, List.length_drop]
      omega
    · rename_i hlt
      refine mk _ ⟨ha, ?_⟩
      have : b = all := by rw [hb, List.take_of_length_le (by omega)]
      rw [this]
      rfl
  case returning a =>
    obtain ⟨ha, rfl⟩ := hp
    cases h
    refine ⟨hf, _, upd_same _ _ _, rfl, ?_⟩
    dsimp only
    rw [show upd s.phase i .done i = Phase.done from upd_same _ _ _]
    exact ⟨_, rfl⟩
  case done => cases h

theorem Reading.same {o : Option Bytes} (v : Reading o s n i) (hf : s'.file n = s.file n)
    (hc : s'.calls i = s.calls i) (hp : s'.phase i = s.phase i) : Reading o s' n i := by
  unfold Reading at v ⊢
  rw [hf, hc, hp]
  exact v

theorem Reading.walk {o : Option Bytes} (v : Reading o s n i) (h : Walk trunc (Elsewhere n) i s s' k) :
    Reading o s' n i := by
  induction h with
  | refl => exact v
  | own _ hi hn ih => exact ih.own hi hn
  | @start s1 k j op _ hj ih =>
    obtain ⟨-, c, hc, -⟩ := id ih
    have e : i ≠ j := fun e => by rw [← e, hc] at hj; cases hj
    exact ih.same rfl (upd_other _ _ e) (upd_other _ _ e)
  | other _ hj _ hP hn ih =>
    obtain ⟨h1, h2⟩ := next_frame hn
    exact ih.same (h2 n hP) (h1 i (Ne.symm hj)).1 (h1 i (Ne.symm hj)).2

/-- A call that registers, when nobody else does. -/
def Writing (s : RollupFile) (n r : LayerName) (i : Nat) : Prop :=
  ∃ c, s.calls i = some c ∧ c.op = .set n r ∧
    match s.phase i with
    | .begun => c.answer = none
    | .writing pos rest => c.answer = none ∧ rest = (rollupFile r).drop pos ∧
        ∃ f, s.file n = some f ∧ pos ≤ f.length ∧ f.take pos = (rollupFile r).take pos
    | .returning a => c.answer = none ∧ a = .done ∧ s.file n = some (rollupFile r)
    | .done => (∃ t, c.answer = some (.done, t)) ∧ s.file n = some (rollupFile r)
    | _ => False

theorem Writing.own {q : Nat} {c : RC} (v : Writing s n r i) (hs : Short s) (hc : s.calls i = some c)
    (h : next trunc s i q c = some s') : Writing s' n r i := by
  obtain ⟨c', hc', ho, hp⟩ := v
  rw [hc] at hc'; cases hc'
  unfold RollupFile.next at h
  cases hph : s.phase i <;> rw [hph] at hp <;> rw [hph, ho] at h <;> simp only at h hp
  case begun =>
    cases h
    refine ⟨c, hc, ho, ?_⟩
    rw [show ((s.putFile n _).goto i (.writing 0 (rollupFile r))).phase i = .writing 0 (rollupFile r)
      from upd_same _ _ _]
    exact ⟨hp, List.drop_zero.symm, _, upd_same _ _ _, Nat.zero_le _, by rw [List.take_zero, List.take_zero]⟩
  case writing pos rest =>
    obtain ⟨ha, hr, f, hf, hle, ht⟩ := hp
    have hsum := hs.writing i pos rest hph
    have hfl := hs.file n f hf
    split at h <;> cases h
    · rename_i he
      refine ⟨c, hc, ho, ?_⟩
      rw [show (s.goto i _).phase i = _ from upd_same _ _ _]
      refine ⟨ha, rfl, ?_⟩
      rw [he, List.length_nil] at hsum
      rw [List.take_of_length_le (by omega),
        List.take_of_length_le (by rw [rollupFile_length]; omega)] at ht
      exact ht ▸ hf
    · refine ⟨c, hc, ho, ?_⟩
      rw [show ((s.putFile n _).goto i _).phase i = _ from upd_same _ _ _]
      refine ⟨ha, ?_, _, upd_same _ _ _, ?_, ?_⟩
      · rw [hr, List.drop_drop, List.length_take, List.drop_eq_drop_iff, rollupFile_length, List.length_drop,
          rollupFile_length]
        omega
      · rw [hf, Option.getD_some]
        unfold LockedLabels.writeAt
        simp only [List.length_append, List.length_take, List.length_replicate, List.length_drop]
        omega
      · rw [hf, Option.getD_some]
        unfold LockedLabels.writeAt
        rw [show pos - f.length = 0 by omega, List.replicate_zero, List.append_nil, List.take_left'
          (by rw [List.length_append, List.length_take, Nat.min_eq_left hle]), ht, List.take_add (i := pos), hr]
        congr 1
        rw [List.take_eq_take_iff, List.length_take]
        omega
  case returning a =>
    obtain ⟨ha, rfl, hf⟩ := hp
    cases h
    refine ⟨_, upd_same _ _ _, rfl, ?_⟩
    dsimp only
    rw [show upd s.phase i .done i = Phase.done from upd_same _ _ _]
    exact ⟨⟨_, rfl⟩, hf⟩
  case done => cases h

theorem Writing.same (v : Writing s n r i) (hf : s'.file n = s.file n)
    (hc : s'.calls i = s.calls i) (hp : s'.phase i = s.phase i) : Writing s' n r i := by
  unfold Writing at v ⊢
  rw [hf, hc, hp]
  exact v

theorem Writing.walk (v : Writing s n r i) (hs : Short s) (h : Walk trunc (Elsewhere n) i s s' k) :
    Writing s' n r i := by
  induction h with
  | refl => exact v
  | own hw hi hn ih => exact ih.own (hw.short hs) hi hn
  | @start s1 k j op _ hj ih =>
    obtain ⟨c, hc, -⟩ := id ih
    have e : i ≠ j := fun e => by rw [← e, hc] at hj; cases hj
    exact ih.same rfl (upd_other _ _ e) (upd_other _ _ e)
  | other _ hj _ hP hn ih =>
    obtain ⟨h1, h2⟩ := next_frame hn
    exact ih.same (h2 n hP) (h1 i (Ne.symm hj)).1 (h1 i (Ne.symm hj)).2

end RollupFile

end Verif
