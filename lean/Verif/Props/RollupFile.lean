import Verif.Lemmas.RollupFileAlone

/-!
C71: the rollups of the layers of a directory store, read and registered at the same time by any number
of callers, also in several processes. The calls are modelled one system call at a time in
`Verif/Model/RollupFile.lean`.
-/

namespace Verif

open Spec

namespace RollupFile

open LockedRollups (upd)

variable {s : RollupFile} {trunc : Bool}

/-- C71, if rollup files are read and written in one piece: every registration takes effect at a moment
while it is under way, and every call that asks for a rollup tells what was registered last at a moment
while it is under way, except that it may return an error while a rollup of that layer is being
registered. No call panics. Missing: that a call does not return this error, and files that are read or
written in several pieces; see `C71_unreadable_wrong` and `C71_mixed_wrong`. -/
theorem C71_register_partial (h : Run trunc true s) : ∃ m, Moments s.calls m ∧
    (∀ i c n r a t, s.calls i = some c → c.op = .set n r → c.answer = some (a, t) → a = .done) ∧
    ∀ i c n a t, s.calls i = some c → c.op = .get n → c.answer = some (a, t) →
      ∃ y, c.start < y ∧ y < t ∧ Tells (!trunc) s.calls m n y a := by
  obtain ⟨m, v⟩ := h.inv
  have key : ∀ i c a t, s.calls i = some c → c.answer = some (a, t) → s.phase i = .done := by
    intro i c a t hi ha
    have hc := v.call i c hi
    unfold CallOk at hc
    cases hp : s.phase i <;> cases ho : c.op <;> rw [hp, ho] at hc <;> simp only at hc
    all_goals first
      | rfl
      | (rw [hc.1] at ha; cases ha)
  refine ⟨m, ⟨v.within, ?_, v.one⟩, ?_, ?_⟩
  · intro i c n r a t hi ho ha
    have hc := v.call i c hi
    unfold CallOk at hc
    rw [key i c a t hi ha, ho] at hc
    obtain ⟨_, x, -, hx⟩ := hc
    exact ⟨x, hx⟩
  · intro i c n r a t hi ho ha
    have hc := v.call i c hi
    unfold CallOk at hc
    rw [key i c a t hi ha, ho] at hc
    obtain ⟨_, _, h1, -⟩ := hc
    rw [ha] at h1; cases h1
    rfl
  · intro i c n a t hi ho ha
    have hc := v.call i c hi
    unfold CallOk at hc
    rw [key i c a t hi ha, ho] at hc
    obtain ⟨q, t', y, h1, h2, h3, -, h4⟩ := hc
    rw [ha] at h1; cases h1
    exact ⟨y, h2, h3, h4⟩

/-- A rollup that a call returns was registered by a call that began before the first one returned. -/
theorem C71_read_written_partial (h : Run trunc true s) {i t : Nat} {n r : LayerName}
    {c : TimedCall (RollupOp LayerName) (RollupRes LayerName)} (hi : s.calls i = some c)
    (ho : c.op = .get n) (ha : c.answer = some (.got (some r), t)) :
    ∃ j d, s.calls j = some d ∧ d.op = .set n r ∧ d.start < t := by
  obtain ⟨m, hm, -, hg⟩ := C71_register_partial h
  obtain ⟨y, -, h2, j, d, x, hj, hd, hx, hlt, -⟩ := hg i c n _ t hi ho ha
  obtain ⟨d', _, _, hj', -, hs, -⟩ := hm.within j x hx
  rw [hj] at hj'; cases hj'
  exact ⟨j, d, hj, hd, by omega⟩

/-- If a rollup of `n` was registered before a call asks for it, and none is being registered while it
asks, then it is told a rollup that was registered before, and not one that was registered before another
one that was registered before. -/
theorem C71_read_after_partial (h : Run trunc true s) {i t : Nat} {n : LayerName}
    {a : RollupRes LayerName} {c : TimedCall (RollupOp LayerName) (RollupRes LayerName)}
    (hi : s.calls i = some c) (ho : c.op = .get n) (ha : c.answer = some (a, t))
    (quiet : ∀ j d r, s.calls j = some d → d.op = .set n r →
      (∃ b u, d.answer = some (b, u) ∧ u < c.start) ∨ t < d.start)
    (before : ∃ j d r b u, s.calls j = some d ∧ d.op = .set n r ∧ d.answer = some (b, u) ∧ u < c.start) :
    ∃ r j d b u, a = .got (some r) ∧ s.calls j = some d ∧ d.op = .set n r ∧ d.answer = some (b, u) ∧
      u < c.start ∧ ∀ j' d' r' b' u', s.calls j' = some d' → d'.op = .set n r' →
        d'.answer = some (b', u') → u' < c.start → ¬ u < d'.start := by
  obtain ⟨m, hm, -, hg⟩ := C71_register_partial h
  obtain ⟨y, h1, h2, ht⟩ := hg i c n _ t hi ho ha
  have inside : ∀ {j d r b u}, s.calls j = some d → d.op = .set n r → d.answer = some (b, u) →
      ∃ x, m j = some x ∧ d.start < x ∧ x < u := by
    intro j d r b u hj hd hu
    obtain ⟨x, hx⟩ := hm.all j d n r b u hj hd hu
    obtain ⟨d', _, _, hj', -, hs, he⟩ := hm.within j x hx
    rw [hj] at hj'; cases hj'
    exact ⟨x, hx, hs, he b u hu⟩
  match a, ht with
  | .got none, ht =>
    obtain ⟨j, d, r, b, u, hj, hd, hu, hlt⟩ := before
    obtain ⟨x, hx, -, hxu⟩ := inside hj hd hu
    exact absurd (show x < y by omega) (ht j d r x hj hd hx)
  | .unreadable, ht =>
    obtain ⟨j, d, r, hj, hd, hs, -, he⟩ := ht.1
    rcases quiet j d r hj hd with ⟨b, u, hu, hlt⟩ | hlt
    · have := he b u hu
      omega
    · omega
  | .got (some r), ht =>
    obtain ⟨j, d, x, hj, hd, hx, hlt, hall⟩ := ht
    obtain ⟨d', _, _, hj', -, hs, -⟩ := hm.within j x hx
    rw [hj] at hj'; cases hj'
    rcases quiet j d r hj hd with ⟨b, u, hu, hlt⟩ | hlt
    · refine ⟨r, j, d, b, u, rfl, hj, hd, hu, hlt, fun j' d' r' b' u' hj' hd' hu' hlt' hbad => ?_⟩
      obtain ⟨x', hx', hs', he'⟩ := inside hj' hd' hu'
      obtain ⟨x0, hx0, -, he0⟩ := inside hj hd hu
      rw [hx] at hx0; cases hx0
      have := hall j' d' r' x' hj' hd' hx' (by omega)
      omega
    · omega

/-! ### Files that are read and written in pieces of any size -/

/-- A call of `get_rollup` or `set_rollup` can always go on until it has returned, and it has after 47
steps, whatever the others do. -/
theorem C71_calls_end {whole : Bool} (h : Run trunc whole s) {i : Nat}
    {c : TimedCall (RollupOp LayerName) (RollupRes LayerName)} (hi : s.calls i = some c) :
    (c.answer = none → (∀ n, c.op ≠ .store n) → ∀ q, ∃ s', next trunc s i q c = some s') ∧
    ∀ s' k, Walk trunc (fun _ => True) i s s' k → k ≤ 47 := by
  refine ⟨fun ha ho q => (h.fits hi).go ha ho q, fun s' k hw => ?_⟩
  have h1 := (hw.left h.short hi).2
  have h2 : left (s.phase i) ≤ 47 := by
    cases hp : s.phase i with
    | writing pos rest =>
      have := h.short.writing i pos rest hp
      simp only [left]
      omega
    | _ => simp only [left]; omega
  omega

/-- A call that looks for a rollup while none is registered for that layer returns what is registered,
whatever the size of the pieces in which it is read and whatever the others do with other layers. -/
theorem C71_pieces_read {i t t0 k : Nat} {n : LayerName} {a : RollupRes LayerName} {s' : RollupFile}
    {c : TimedCall (RollupOp LayerName) (RollupRes LayerName)} (hi : s.calls i = some ⟨.get n, t0, none⟩)
    (hp : s.phase i = .begun) (hw : Walk trunc (Elsewhere n) i s s' k) (hc : s'.calls i = some c)
    (ha : c.answer = some (a, t)) :
    (s.file n = none → a = .got none) ∧ ∀ r, s.file n = some (rollupFile r) → a = .got (some r) := by
  have v : Reading (s.file n) s n i := ⟨rfl, _, hi, rfl, by rw [hp]; rfl⟩
  have e : a = told (s.file n) := by
    obtain ⟨-, c', hc', -, h⟩ := v.walk hw
    rw [hc] at hc'; cases hc'
    unfold ReadingAt at h
    split at h
    · rw [h] at ha; cases ha
    · rw [h.1] at ha; cases ha
    · rw [h.1] at ha; cases ha
    · rw [h.1] at ha; cases ha
    · obtain ⟨t', h⟩ := h
      rw [ha] at h; cases h
      rfl
    · exact h.elim
  refine ⟨fun hf => by rw [e, hf]; rfl, fun r hf => ?_⟩
  rw [e, hf]
  show result (rollupFile r) = _
  have : readRollupFile (rollupFile r) = .ok r := by
    have := readRollupFile_long r (i := 43) (by omega)
    rwa [List.take_of_length_le (by rw [rollupFile_length])] at this
  unfold result
  rw [this]

/-- A call that registers a rollup while no other one is registered for that layer succeeds, and the rollup is
registered then. -/
theorem C71_pieces_write {whole : Bool} (h : Run trunc whole s) {i t t0 k : Nat} {n r : LayerName}
    {a : RollupRes LayerName} {s' : RollupFile}
    {c : TimedCall (RollupOp LayerName) (RollupRes LayerName)}
    (hi : s.calls i = some ⟨.set n r, t0, none⟩) (hp : s.phase i = .begun)
    (hw : Walk trunc (Elsewhere n) i s s' k) (hc : s'.calls i = some c) (ha : c.answer = some (a, t)) :
    a = .done ∧ s'.file n = some (rollupFile r) := by
  have v : Writing s n r i := ⟨_, hi, rfl, by rw [hp]⟩
  obtain ⟨c', hc', -, h⟩ := v.walk h.short hw
  rw [hc] at hc'; cases hc'
  split at h
  · rw [h] at ha; cases ha
  · rw [h.1] at ha; cases ha
  · rw [h.1] at ha; cases ha
  · obtain ⟨⟨t', h⟩, hf⟩ := h
    rw [ha] at h; cases h
    exact ⟨rfl, hf⟩
  · exact h.elim

/-! ### Executions that can be evaluated -/

/-- A call begins, or goes on by `k + 1` bytes at most. -/
inductive Act where
  | call (i : Nat) (op : RollupOp LayerName)
  | go (i k : Nat)

/-- What happens. -/
def act (trunc whole : Bool) (s : RollupFile) : Act → RollupFile
  | .call i op =>
    match s.calls i with
    | none => { s with calls := upd s.calls i (some ⟨op, s.now, none⟩)
                       phase := upd s.phase i .begun
                       now := s.now + 1 }
    | some _ => s
  | .go i k =>
    match s.calls i with
    | none => s
    | some c =>
      match next trunc s i (if whole then k + 42 else k) c with
      | none => s
      | some s' => s'

theorem act_run {whole : Bool} (hs : Run trunc whole s) (a : Act) :
    Run trunc whole (act trunc whole s a) := by
  cases a with
  | call i op =>
    simp only [act]
    split
    · rename_i h
      exact hs.step (.start h)
    · exact hs
  | go i k =>
    simp only [act]
    split
    · exact hs
    · rename_i c h
      split
      · exact hs
      · rename_i s' h2
        exact hs.step (.go h (fun e => by rw [if_pos e]; omega) h2)

/-- Some things happen one after the other. -/
def exec (trunc whole : Bool) (s : RollupFile) : List Act → RollupFile
  | [] => s
  | a :: as => exec trunc whole (act trunc whole s a) as

theorem exec_run {whole : Bool} {s : RollupFile} (hs : Run trunc whole s) (as : List Act) :
    Run trunc whole (exec trunc whole s as) := by
  induction as generalizing s with
  | nil => exact hs
  | cons a as ih => exact ih (act_run hs a)

/-- What a call was answered. -/
def answered (s : RollupFile) (i : Nat) : Option (RollupRes LayerName) :=
  (s.calls i).bind (fun c => c.answer.map (·.1))

/-- A call goes on until it has returned. -/
def finish (i : Nat) : List Act := List.replicate 6 (.go i 42)

private def m1 : LayerName := ⟨1, 2, 3, 4, 5⟩
private def m2 : LayerName := ⟨6, 7, 8, 9, 10⟩
private def m3 : LayerName := ⟨11, 12, 13, 14, 15⟩

/-- Two rollups of a layer are registered at the same time and read three times: at the beginning, between
the two and at the end. -/
def story : List Act :=
  [.call 0 (.get m1)] ++ finish 0 ++ [.call 1 (.set m1 m2), .call 2 (.set m1 m3), .go 1 0, .go 2 0, .go 2 0,
    .call 3 (.get m1)] ++ finish 3 ++ finish 1 ++ finish 2 ++ [.call 4 (.get m1)] ++ finish 4

/-- The theorems above are about executions such as this one. -/
example : Run true true (exec true true {} story) ∧
    answered (exec true true {} story) 0 = some (.got none) ∧
    answered (exec true true {} story) 1 = some .done ∧
    answered (exec true true {} story) 2 = some .done ∧
    answered (exec true true {} story) 3 = some (.got (some m3)) ∧
    answered (exec true true {} story) 4 = some (.got (some m2)) :=
  ⟨exec_run .start _, by decide +kernel, by decide +kernel, by decide +kernel, by decide +kernel,
    by decide +kernel⟩

/-- A layer has a rollup; another one is being registered when a call asks. -/
def between : List Act :=
  [.call 0 (.set m1 m2)] ++ finish 0 ++ [.call 1 (.set m1 m3), .go 1 0, .call 2 (.get m1)] ++ finish 2 ++
  finish 1

/-- A call asks while the first rollup is being registered. -/
def atFirst : List Act :=
  [.call 1 (.set m1 m3), .go 1 0, .call 2 (.get m1)] ++ finish 2 ++ finish 1

/-- C71 is false without the exception: a call can return an error when a rollup of the layer is being
registered, whether or not opening a file for writing truncates it; and if it does, also when the layer
already had one. -/
theorem C71_unreadable_wrong :
    (∀ trunc, ∃ s, Run trunc true s ∧ answered s 2 = some .unreadable) ∧
    ∃ s, Run true true s ∧ answered s 0 = some .done ∧ answered s 1 = some .done ∧
      answered s 2 = some .unreadable :=
  ⟨fun trunc => ⟨exec trunc true {} atFirst, exec_run .start _, by cases trunc <;> decide +kernel⟩,
    exec true true {} between, exec_run .start _, by decide +kernel, by decide +kernel, by decide +kernel⟩

example : answered (exec false true {} between) 2 = some (.got (some m2)) := by decide +kernel

/-- Two rollups are registered at the same time; the first is written in two pieces, and the second between
them. -/
def mixed : List Act :=
  [.call 0 (.set m1 m2), .call 1 (.set m1 m3), .go 0 0, .go 1 0, .go 0 19] ++ finish 1 ++ finish 0 ++
  [.call 2 (.get m1)] ++ finish 2

/-- One rollup is registered after the other; a call that reads the file in two pieces asks meanwhile. -/
def tornRead : List Act :=
  [.call 0 (.set m1 m2)] ++ finish 0 ++ [.call 2 (.get m1), .go 2 0, .go 2 19, .call 1 (.set m1 m3)] ++
  finish 1 ++ finish 2

theorem next_op {s s' : RollupFile} {i k j : Nat}
    {c d : TimedCall (RollupOp LayerName) (RollupRes LayerName)} (hi : s.calls i = some c)
    (h : next trunc s i k c = some s') (hj : s'.calls j = some d) :
    ∃ d0, s.calls j = some d0 ∧ d0.op = d.op := by
  unfold next at h
  repeat' first | split at h | (dsimp only at h; split at h)
  all_goals first
    | (cases h; exact ⟨d, hj, rfl⟩)
    | cases h
  by_cases e : j = i
  · subst e
    replace hj : upd s.calls j _ j = some d := hj
    rw [LockedRollups.upd_same] at hj; cases hj
    exact ⟨c, hi, rfl⟩
  · replace hj : upd s.calls i _ j = some d := hj
    rw [LockedRollups.upd_other _ _ e] at hj
    exact ⟨d, hj, rfl⟩

theorem exec_op {whole : Bool} {as : List Act} {s : RollupFile} {j : Nat}
    {d : TimedCall (RollupOp LayerName) (RollupRes LayerName)}
    (h : (exec trunc whole s as).calls j = some d) :
    (∃ d0, s.calls j = some d0 ∧ d0.op = d.op) ∨ .call j d.op ∈ as := by
  induction as generalizing s with
  | nil => exact .inl ⟨d, h, rfl⟩
  | cons a as ih =>
    rcases ih h with ⟨d0, h0, e0⟩ | h1
    · cases a with
      | call i op =>
        simp only [act] at h0
        split at h0
        · by_cases e : j = i
          · subst e
            replace h0 : upd s.calls j _ j = some d0 := h0
            rw [LockedRollups.upd_same] at h0; cases h0
            exact .inr (e0 ▸ List.mem_cons_self)
          · replace h0 : upd s.calls i _ j = some d0 := h0
            rw [LockedRollups.upd_other _ _ e] at h0
            exact .inl ⟨d0, h0, e0⟩
        · exact .inl ⟨d0, h0, e0⟩
      | go i k =>
        simp only [act] at h0
        split at h0
        · exact .inl ⟨d0, h0, e0⟩
        · rename_i c hi
          split at h0
          · exact .inl ⟨d0, h0, e0⟩
          · rename_i s' h2
            obtain ⟨d1, h3, e3⟩ := next_op hi h2 h0
            exact .inl ⟨d1, h3, e3.trans e0⟩
    · exact .inr (List.mem_cons_of_mem _ h1)

deriving instance DecidableEq for TimedCall

/-- A rollup is registered, and then read. -/
def oneByOne : List Act := [.call 0 (.set m1 m2)] ++ finish 0 ++ [.call 1 (.get m1)] ++ finish 1

/-- The hypotheses of `C71_read_after_partial` are met. -/
example : ∃ s c a t, Run true true s ∧ s.calls 1 = some c ∧ c.op = .get m1 ∧ c.answer = some (a, t) ∧
    (∀ j d r, s.calls j = some d → d.op = .set m1 r →
      (∃ b u, d.answer = some (b, u) ∧ u < c.start) ∨ t < d.start) ∧
    ∃ j d r b u, s.calls j = some d ∧ d.op = .set m1 r ∧ d.answer = some (b, u) ∧ u < c.start := by
  have h0 : (exec true true {} oneByOne).calls 0 = some ⟨.set m1 m2, 0, some (.done, 4)⟩ := by
    decide +kernel
  have h1 : (exec true true {} oneByOne).calls 1 = some ⟨.get m1, 5, some (.got (some m2), 9)⟩ := by
    decide +kernel
  refine ⟨_, _, _, _, exec_run .start oneByOne, h1, rfl, rfl, fun j d r hj hd => .inl ?_,
    0, _, m2, _, _, h0, rfl, rfl, by decide⟩
  rcases exec_op hj with ⟨_, h, -⟩ | h
  · cases h
  · rw [hd] at h
    have : j = 0 := by
      simp [oneByOne, finish] at h
      exact h.1
    subst this
    rw [h0] at hj; cases hj
    exact ⟨_, _, rfl, by decide⟩

theorem goes_walk {P : RollupOp LayerName → Prop} {i q : Nat} (m : Nat) {s0 : RollupFile} {k : Nat}
    (h : Walk trunc P i s0 s k) :
    ∃ k', Walk trunc P i s0 (exec trunc false s (List.replicate m (.go i q))) k' := by
  induction m generalizing s k with
  | zero => exact ⟨k, h⟩
  | succ m ih =>
    rw [List.replicate_succ]
    show ∃ k', Walk trunc P i s0 (exec trunc false (act trunc false s (.go i q)) (List.replicate m (.go i q))) k'
    simp only [act]
    split
    · exact ih h
    · rename_i c hc
      split
      · exact ih h
      · rename_i s' hn
        exact ih (.own h hc hn)

/-- The hypotheses of `C71_pieces_write` and `C71_pieces_read` are met: a rollup is registered by 10 bytes at
a time and read by 7 at a time. -/
example : ∃ s1 s2 s3 s4 k k', Run false false s1 ∧ s1.calls 0 = some ⟨.set m1 m2, 0, none⟩ ∧
    s1.phase 0 = .begun ∧ Walk false (Elsewhere m1) 0 s1 s2 k ∧ answered s2 0 = some .done ∧
    s3.calls 1 = some ⟨.get m1, s2.now, none⟩ ∧ s3.phase 1 = .begun ∧ s3.file m1 = s2.file m1 ∧
    Walk false (Elsewhere m1) 1 s3 s4 k' ∧ answered s4 1 = some (.got (some m2)) := by
  obtain ⟨k, hk⟩ := goes_walk (trunc := false) (P := Elsewhere m1) (i := 0) (q := 9) 8
    (.refl (exec false false {} [.call 0 (.set m1 m2)]))
  obtain ⟨k', hk'⟩ := goes_walk (trunc := false) (P := Elsewhere m1) (i := 1) (q := 6) 11
    (.refl (exec false false {} ([.call 0 (.set m1 m2)] ++ List.replicate 8 (.go 0 9) ++ [.call 1 (.get m1)])))
  refine ⟨_, _, _, _, k, k', exec_run .start _, ?_, ?_, hk, ?_, ?_, ?_, ?_, hk', ?_⟩
  all_goals decide +kernel

/-- Is this registered in an execution? -/
def registers (n r : LayerName) : Act → Bool
  | .call _ (.set n' r') => n' == n && r' == r
  | _ => false

theorem not_registered {whole : Bool} {as : List Act} {n r : LayerName}
    (h : as.any (registers n r) = false) {i : Nat}
    {c : TimedCall (RollupOp LayerName) (RollupRes LayerName)}
    (hi : (exec trunc whole {} as).calls i = some c) : c.op ≠ .set n r := by
  intro e
  rcases exec_op hi with ⟨d0, h0, -⟩ | h1
  · cases h0
  · rw [e] at h1
    have : as.any (registers n r) = true := List.any_eq_true.mpr ⟨_, h1, by simp [registers]⟩
    rw [h] at this; cases this

/-- C71 is false if rollup files are written or read in several pieces: a layer can then have a rollup that
nobody registered, and keeps it; and a call can be told one that nobody registered. -/
theorem C71_mixed_wrong (trunc : Bool) :
    (∃ s n r, Run trunc false s ∧ answered s 0 = some .done ∧ answered s 1 = some .done ∧
      answered s 2 = some (.got (some r)) ∧ s.file n = some (rollupFile r) ∧
      ∀ i c, s.calls i = some c → c.op ≠ .set n r) ∧
    ∃ s n r r', Run trunc false s ∧ answered s 0 = some .done ∧ answered s 1 = some .done ∧
      answered s 2 = some (.got (some r)) ∧ s.file n = some (rollupFile r') ∧
      ∀ i c, s.calls i = some c → c.op ≠ .set n r := by
  refine ⟨⟨exec trunc false {} mixed, m1, ⟨11, 12, 8, 9, 10⟩, exec_run .start _, ?_, ?_, ?_, ?_,
    fun i c => not_registered (by decide +kernel)⟩,
    ⟨exec trunc false {} tornRead, m1, ⟨6, 7, 13, 14, 15⟩, m3, exec_run .start _, ?_, ?_, ?_, ?_,
    fun i c => not_registered (by decide +kernel)⟩⟩
  all_goals cases trunc <;> decide +kernel

end RollupFile

end Verif
