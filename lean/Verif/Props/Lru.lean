import Verif.Lemmas.Lru

/-!
The memory cache of archives: C43.
-/

namespace Verif

open Lru

namespace LruArch

/-! ### Reads of layers -/

/-- C43, without the limit: bytes that a read through the cache returned are what the directory has, whatever
else runs at the same time, even if futures are dropped; except if somebody reads the layer while it
is being written. -/
theorem C43_read_right_partial {cancels : Bool} {disk : ArchDir} {limit : Nat} {s : LruArch}
    {L : List LruEvent} (h : Run cancels disk limit s L) {t : Nat} {n : LayerName} {b : Bytes}
    (hr : .returned t n (.ok b) ∈ L) (ht : ∀ u, .torn u n ∉ L) : s.disk.getLayerBytes n = .ok b := by
  obtain ⟨v, hv⟩ := h.inv.log t n _ hr
  obtain ⟨x, h1, -, h3⟩ := (h.inv.calls t _ hv).2.1 b rfl
  obtain ⟨rfl, -⟩ := h3 ht
  unfold ArchDir.getLayerBytes ArchDir.open
  rw [h1]; rfl

/-- C43: even then, what a read returns is the beginning of what the directory has. -/
theorem C43_read_prefix {cancels : Bool} {disk : ArchDir} {limit : Nat} {s : LruArch}
    {L : List LruEvent} (h : Run cancels disk limit s L) {t : Nat} {n : LayerName} {b : Bytes}
    (hr : .returned t n (.ok b) ∈ L) : ∃ x, s.disk.getLayerBytes n = .ok x ∧ b <+: x := by
  obtain ⟨v, hv⟩ := h.inv.log t n _ hr
  obtain ⟨x, h1, h2, -⟩ := (h.inv.calls t _ hv).2.1 b rfl
  refine ⟨x, ?_, h2⟩
  unfold ArchDir.getLayerBytes ArchDir.open
  rw [h1]; rfl

/-- C43: no read panics, if no future is dropped. -/
theorem C43_no_panic {disk : ArchDir} {limit : Nat} {s : LruArch} {L : List LruEvent}
    (h : Run false disk limit s L) (t : Nat) (n : LayerName) : .returned t n .panic ∉ L := by
  intro hr
  obtain ⟨v, hv⟩ := h.inv.log t n _ hr
  exact Bool.false_ne_true ((h.inv.calls t _ hv).1 rfl)

/-- Each step notes at most one return, last. -/
theorem Step.log_shape {cancels : Bool} {s s' : LruArch} {L L' : List LruEvent}
    (h : Step cancels s L s' L') : L' = L ∨ ∃ e M, L' = e :: M ∧ (M = L ∨ ∃ t n, M = .called t n :: L) := by
  cases h with
  | start n =>
    right
    unfold startLog
    split
    · exact ⟨_, _, rfl, Or.inr ⟨_, _, rfl⟩⟩
    · exact ⟨_, _, rfl, Or.inl rfl⟩
  | look h =>
    unfold lookLog
    split
    · exact Or.inr ⟨_, _, rfl, Or.inl rfl⟩
    · exact Or.inr ⟨_, _, rfl, Or.inl rfl⟩
    · exact Or.inl rfl
  | finish h => exact Or.inr ⟨_, _, rfl, Or.inl rfl⟩
  | wake h hw hv => exact Or.inr ⟨_, _, rfl, Or.inl rfl⟩
  | storeOpen b h => exact Or.inr ⟨_, _, rfl, Or.inl rfl⟩
  | storeEnd h hb => exact Or.inr ⟨_, _, rfl, Or.inl rfl⟩
  | _ => exact Or.inl rfl

/-- C43: if a read finds nothing, then there is a read that looked for the file in vain, and
had not returned when this read began (it may be this read itself). So a read fails only if
the file was missing at some time, and a read that begins when all such reads are over
returns the bytes. -/
theorem C43_read_miss {cancels : Bool} {disk : ArchDir} {limit : Nat} {s : LruArch}
    {L : List LruEvent} (h : Run cancels disk limit s L) {later before : List LruEvent} {t : Nat}
    {n : LayerName} (hL : L = later ++ .returned t n .err :: before) :
    ∃ t', .missed t' n ∈ before ∧ ∀ r, .returned t' n r ∉ beforeCall t before := by
  induction h generalizing later with
  | start => simp at hL
  | @step s L s' L' h hs ih =>
    have hi := (h.step hs).inv
    have key : ∀ e M, L' = e :: M → (M = L ∨ ∃ t n, M = .called t n :: L) →
        ∃ t', .missed t' n ∈ before ∧ ∀ r, .returned t' n r ∉ beforeCall t before := by
      intro e M hLe hM
      rw [hL] at hLe
      cases later with
      | nil =>
        simp only [List.nil_append, List.cons.injEq] at hLe
        obtain ⟨rfl, rfl⟩ := hLe
        have hret : .returned t n .err ∈ L' := by rw [hL]; simp
        obtain ⟨v, hv⟩ := hi.log t n _ hret
        obtain ⟨t', h1, h2⟩ := (hi.calls t _ hv).2.2.1 rfl
        rw [hL] at h1 h2
        refine ⟨t', ?_, h2⟩
        simpa using h1
      | cons x later =>
        simp only [List.cons_append, List.cons.injEq] at hLe
        rcases hM with rfl | ⟨t0, n0, rfl⟩
        · exact ih hLe.2.symm
        · cases later with
          | nil => simp at hLe
          | cons y later =>
            simp only [List.cons_append, List.cons.injEq] at hLe
            exact ih hLe.2.2.symm
    rcases hs.log_shape with e | ⟨e, M, h1, h2⟩
    · exact ih (by rw [← e]; exact hL)
    · exact key e M h1 h2

/-- What is known of the file of a layer, in terms of what was noted. -/
structure Files (disk : ArchDir) (s : LruArch) (L : List LruEvent) (n : LayerName) : Prop where
  first : ∀ b, disk.file n = some b → s.disk.file n = some b ∧ s.writing.lookup n = none ∧
    ∀ b', .began n b' ∉ L
  writing : ∀ rest, s.writing.lookup n = some rest → ∃ x, s.disk.file n = some x ∧
    .began n (x ++ rest) ∈ L ∧ ∀ b, .stored n b ∉ L
  stored : ∀ b, .stored n b ∈ L → s.disk.file n = some b ∧ s.writing.lookup n = none ∧
    .began n b ∈ L
  torn : ∀ t, .torn t n ∈ L → ∃ b, .began n b ∈ L
  began : ∀ b, .began n b ∈ L → s.disk.file n ≠ none

theorem Run.files {cancels : Bool} {disk : ArchDir} {limit : Nat} {s : LruArch}
    {L : List LruEvent} (h : Run cancels disk limit s L) (n : LayerName) : Files disk s L n := by
  induction h with
  | start =>
    refine ⟨fun b hb => ⟨hb, rfl, fun _ h => ?_⟩, fun _ h => ?_, fun _ h => ?_, fun _ h => ?_,
      fun _ h => ?_⟩ <;> cases h
  | @step s L s' L' h hs ih =>
    obtain ⟨hi, ho⟩ := h.inv_open
    have more : ∀ e ∈ L, e ∈ L' := by
      cases hs with
      | start m => unfold startLog; split <;> intro e he <;> simp [he]
      | look h => unfold lookLog; split <;> intro e he <;> simp [he]
      | _ => intro e he; simp [he]
    have begans : (∀ m b, s.disk.file m ≠ none → .began m b ∈ L' → .began m b ∈ L) := by
      intro m b hm
      cases hs with
      | start m => unfold startLog; split <;> simp
      | look h => unfold lookLog; split <;> simp
      | @storeOpen _ k b' h' =>
        intro hb
        rcases List.mem_cons.1 hb with e | hb
        · cases e
          exact absurd h' hm
        · exact hb
      | _ => simp
    have torns : ∀ t, .torn t n ∈ L' → .torn t n ∈ L ∨ ∃ rest, s.writing.lookup n = some rest := by
      intro t
      cases hs with
      | start m => unfold startLog; split <;> simp_all
      | look h =>
        unfold lookLog
        split
        · simp_all
        · rename_i h1 h2
          intro ht
          rcases List.mem_cons.1 ht with e | ht
          · cases e
            exact Or.inr ⟨_, h2⟩
          · exact Or.inl ht
        · exact Or.inl
      | _ => simp_all
    have torn' : ∀ t, .torn t n ∈ L' → ∃ b, .began n b ∈ L' := by
      intro t ht
      rcases torns t ht with ht | ⟨rest, hr⟩
      · obtain ⟨b, hb⟩ := ih.torn t ht
        exact ⟨b, more _ hb⟩
      · obtain ⟨x, -, hx, -⟩ := ih.writing rest hr
        exact ⟨_, more _ hx⟩
    rcases hi.step_disk ho hs with ⟨h1, h2, h3⟩ | ⟨m, b, h1, rfl, h3, h4⟩ |
      ⟨m, x, rest, k, h1, h2, rfl, h3, h4⟩ | ⟨m, b, h1, rfl, h2, h3, h4⟩
    · -- the disk stays
      have hb : ∀ b, .began n b ∈ L' → s.disk.file n ≠ none := by
        intro b hb
        cases hs with
        | @storeOpen _ k b' h' =>
          have := h1 k
          rw [show (s.storeOpen k b').disk.file k = some [] by
            show (ArchDir.storeLayerFile _ _ _).file k = _
            rw [storeLayerFile_new h', if_pos rfl], h'] at this
          cases this
        | start m =>
          refine ih.began b ?_
          revert hb
          unfold startLog; split <;> simp
        | look h =>
          refine ih.began b ?_
          revert hb
          unfold lookLog; split <;> simp
        | _ => exact ih.began b (by simpa using hb)
      refine ⟨?_, ?_, ?_, torn', ?_⟩
      · intro b hb'
        obtain ⟨g1, g2, g3⟩ := ih.first b hb'
        refine ⟨by rw [h1]; exact g1, by rw [h2]; exact g2, fun b' hm => ?_⟩
        exact g3 b' (begans n b' (by rw [g1]; exact fun h => by cases h) hm)
      · intro rest hr
        rw [h2] at hr
        obtain ⟨x, g1, g2, g3⟩ := ih.writing rest hr
        exact ⟨x, by rw [h1]; exact g1, more _ g2, fun b hm => g3 b ((h3 n b).1 hm)⟩
      · intro b hm
        obtain ⟨g1, g2, g3⟩ := ih.stored b ((h3 n b).1 hm)
        exact ⟨by rw [h1]; exact g1, by rw [h2]; exact g2, more _ g3⟩
      · intro b hm
        rw [h1]
        exact hb b hm
    · -- a file is made
      by_cases e : n = m
      · subst e
        have nf : ∀ b', disk.file n ≠ some b' := fun b' hb' => by
          rw [(ih.first b' hb').1] at h1; cases h1
        have ns : ∀ b', .stored n b' ∉ L := fun b' hb' => by
          rw [(ih.stored b' hb').1] at h1; cases h1
        have hl : s'.writing.lookup n = some b := by
          rw [h3, List.lookup_cons]; simp
        refine ⟨fun b' hb' => absurd hb' (nf b'), ?_, ?_, torn', ?_⟩
        · intro rest hr
          rw [hl] at hr
          cases hr
          exact ⟨[], by rw [h4, if_pos rfl], List.mem_cons_self, fun b' hm => by
            rcases List.mem_cons.1 hm with e | hm
            · cases e
            · exact ns b' hm⟩
        · intro b' hm
          rcases List.mem_cons.1 hm with e | hm
          · cases e
          · exact absurd hm (ns b')
        · intro b' hm
          rw [h4, if_pos rfl]
          exact fun h => by cases h
      · have hl : s'.writing.lookup n = s.writing.lookup n := by
          have : (n == m) = false := by simpa using e
          rw [h3, List.lookup_cons, this]
        have hf : s'.disk.file n = s.disk.file n := by rw [h4, if_neg e]
        have hm' : ∀ {ev}, ev ∈ .began m b :: L → ev ≠ .began m b → ev ∈ L := by
          intro ev hm hne
          rcases List.mem_cons.1 hm with e | hm
          · exact absurd e hne
          · exact hm
        refine ⟨?_, ?_, ?_, torn', ?_⟩
        · intro b' hb'
          obtain ⟨g1, g2, g3⟩ := ih.first b' hb'
          refine ⟨by rw [hf]; exact g1, by rw [hl]; exact g2, fun b2 hm => g3 b2 (hm' hm ?_)⟩
          intro h; cases h; exact e rfl
        · intro rest hr
          rw [hl] at hr
          obtain ⟨x, g1, g2, g3⟩ := ih.writing rest hr
          exact ⟨x, by rw [hf]; exact g1, List.mem_cons_of_mem _ g2,
            fun b2 hm => g3 b2 (hm' hm (fun h => by cases h))⟩
        · intro b2 hm
          obtain ⟨g1, g2, g3⟩ := ih.stored b2 (hm' hm (fun h => by cases h))
          exact ⟨by rw [hf]; exact g1, by rw [hl]; exact g2, List.mem_cons_of_mem _ g3⟩
        · intro b2 hm
          rw [hf]
          refine ih.began b2 (hm' hm ?_)
          intro h; cases h; exact e rfl
    · -- a part is written
      by_cases e : n = m
      · subst e
        have hl : s'.writing.lookup n = some (rest.drop (k + 1)) := by
          rw [h3, lookup_cons_filter, if_pos rfl]
        obtain ⟨x', g1, g2, g3⟩ := ih.writing rest h1
        rw [h2] at g1
        cases g1
        refine ⟨?_, ?_, ?_, torn', ?_⟩
        · intro b' hb'
          have := (ih.first b' hb').2.1
          rw [h1] at this
          cases this
        · intro rest' hr
          rw [hl] at hr
          cases hr
          refine ⟨_, by rw [h4, if_pos rfl], ?_, g3⟩
          rw [List.append_assoc, List.take_append_drop]
          exact g2
        · intro b' hm
          exact absurd hm (g3 b')
        · intro b' hm
          rw [h4, if_pos rfl]
          exact fun h => by cases h
      · have hl : s'.writing.lookup n = s.writing.lookup n := by
          rw [h3, lookup_cons_filter, if_neg e]
        have hf : s'.disk.file n = s.disk.file n := by rw [h4, if_neg e]
        refine ⟨?_, ?_, ?_, torn', ?_⟩
        · rw [hf, hl]; exact ih.first
        · rw [hf, hl]; exact ih.writing
        · rw [hf, hl]; exact ih.stored
        · rw [hf]; exact ih.began
    · -- a file is complete
      have hm' : ∀ {ev}, ev ∈ .stored m b :: L → ev ≠ .stored m b → ev ∈ L := by
        intro ev hm hne
        rcases List.mem_cons.1 hm with e | hm
        · exact absurd e hne
        · exact hm
      have hl : s'.writing.lookup n = if n = m then none else s.writing.lookup n := by
        rw [h3]
        exact lookup_filter_ne _ _ _
      refine ⟨?_, ?_, ?_, torn', ?_⟩
      · intro b' hb'
        obtain ⟨g1, g2, g3⟩ := ih.first b' hb'
        refine ⟨by rw [h4]; exact g1, ?_, fun b2 hm => g3 b2 (hm' hm (fun h => by cases h))⟩
        rw [hl, g2]
        split <;> rfl
      · intro rest hr
        rw [hl] at hr
        split at hr
        · cases hr
        · rename_i e
          obtain ⟨x, g1, g2, g3⟩ := ih.writing rest hr
          refine ⟨x, by rw [h4]; exact g1, List.mem_cons_of_mem _ g2, fun b2 hm => g3 b2 (hm' hm ?_)⟩
          intro h; cases h; exact e rfl
      · intro b2 hm
        rw [h4, hl]
        rcases List.mem_cons.1 hm with e | hm
        · cases e
          obtain ⟨x, g1, g2, -⟩ := ih.writing [] h2
          rw [h1] at g1
          cases g1
          rw [List.append_nil] at g2
          exact ⟨h1, by rw [if_pos rfl], List.mem_cons_of_mem _ g2⟩
        · obtain ⟨g1, g2, g3⟩ := ih.stored b2 hm
          refine ⟨g1, ?_, List.mem_cons_of_mem _ g3⟩
          rw [g2]
          split <;> rfl
      · intro b2 hm
        rw [h4]
        exact ih.began b2 (hm' hm (fun h => by cases h))

/-- C43: a layer that was stored is in the directory from then on, with the bytes that were given. -/
theorem C43_stored {cancels : Bool} {disk : ArchDir} {limit : Nat} {s : LruArch}
    {L : List LruEvent} (h : Run cancels disk limit s L) {n : LayerName} {b : Bytes}
    (hb : .stored n b ∈ L) : s.disk.getLayerBytes n = .ok b ∧ .began n b ∈ L := by
  obtain ⟨h1, -, h3⟩ := (h.files n).stored b hb
  refine ⟨?_, h3⟩
  unfold ArchDir.getLayerBytes ArchDir.open
  rw [h1]; rfl

/-- C43: a read that looked in vain did so before the file was stored. -/
theorem C43_miss_absent {cancels : Bool} {disk : ArchDir} {limit : Nat} {s : LruArch}
    {L : List LruEvent} (h : Run cancels disk limit s L) {later before : List LruEvent} {t : Nat}
    {n : LayerName} (hL : L = later ++ .missed t n :: before) :
    disk.file n = none ∧ ∀ b, .stored n b ∉ before := by
  induction h generalizing later with
  | start => simp at hL
  | @step s L s' L' h hs ih =>
    have tail : ∀ e, L' = e :: L → (∀ t n, e ≠ .missed t n) → disk.file n = none ∧ ∀ b, .stored n b ∉ before := by
      intro e hLe hne
      rw [hL] at hLe
      cases later with
      | nil =>
        simp only [List.nil_append, List.cons.injEq] at hLe
        exact absurd hLe.1.symm (hne t n)
      | cons x later =>
        simp only [List.cons_append, List.cons.injEq] at hLe
        exact ih hLe.2.symm
    cases hs with
    | start m =>
      unfold startLog at hL tail
      split at hL
      · cases later with
        | nil => simp at hL
        | cons x later =>
          cases later with
          | nil => simp at hL
          | cons y later =>
            simp only [List.cons_append, List.cons.injEq] at hL
            exact ih hL.2.2
      · cases later with
        | nil => simp at hL
        | cons x later =>
          simp only [List.cons_append, List.cons.injEq] at hL
          exact ih hL.2
    | look hc =>
      rename_i t0 n0
      unfold lookLog at hL tail
      split at hL
      · rename_i hf
        cases later with
        | nil =>
          simp only [List.nil_append, List.cons.injEq, LruEvent.missed.injEq] at hL
          obtain ⟨⟨rfl, rfl⟩, rfl⟩ := hL
          refine ⟨?_, fun b hb => ?_⟩
          · cases hd : disk.file n0 with
            | none => rfl
            | some b =>
              rw [((h.files n0).first b hd).1] at hf
              cases hf
          · rw [((h.files n0).stored b hb).1] at hf
            cases hf
        | cons x later =>
          simp only [List.cons_append, List.cons.injEq] at hL
          exact ih hL.2
      · cases later with
        | nil => simp at hL
        | cons x later =>
          simp only [List.cons_append, List.cons.injEq] at hL
          exact ih hL.2
      · exact ih hL
    | finish hc => exact tail _ rfl (fun _ _ h => by cases h)
    | wake _ _ _ => exact tail _ rfl (fun _ _ h => by cases h)
    | storeOpen b hb => exact tail _ rfl (fun _ _ h => by cases h)
    | storeWrite _ _ _ => exact ih hL
    | storeEnd _ _ => exact tail _ rfl (fun _ _ h => by cases h)
    | storeCache _ _ => exact ih hL
    | setRollup _ => exact ih hL
    | cancelLooking _ _ => exact ih hL
    | cancelFound _ _ => exact ih hL
    | cancelWaiting _ _ => exact ih hL

/-- C43: every read of a layer that was there from the start returns its bytes. -/
theorem C43_read_existing_partial {disk : ArchDir} {limit : Nat} {s : LruArch} {L : List LruEvent}
    (h : Run false disk limit s L) {t : Nat} {n : LayerName} {b : Bytes} {r : Out Bytes}
    (hb : disk.getLayerBytes n = .ok b) (hr : .returned t n r ∈ L) : r = .ok b := by
  obtain ⟨x, hf⟩ : ∃ x, disk.file n = some x := by
    unfold ArchDir.getLayerBytes ArchDir.open at hb
    cases hd : disk.file n with
    | none => rw [hd] at hb; cases hb
    | some x => exact ⟨x, rfl⟩
  obtain ⟨g1, -, g3⟩ := (h.files n).first x hf
  have hsame : s.disk.file n = disk.file n := by rw [g1, hf]
  have hnt : ∀ u, .torn u n ∉ L := fun u hu => by
    obtain ⟨b', hb'⟩ := (h.files n).torn u hu
    exact g3 b' hb'
  cases r with
  | ok b' =>
    have := C43_read_right_partial h hr hnt
    unfold ArchDir.getLayerBytes ArchDir.open at this hb
    rw [hsame, hb] at this
    exact this.symm
  | panic => exact absurd hr (C43_no_panic h t n)
  | err =>
    obtain ⟨later, before, e⟩ := List.append_of_mem hr
    obtain ⟨t', h1, -⟩ := C43_read_miss h e
    obtain ⟨l2, b2, e2⟩ := List.append_of_mem h1
    have := C43_miss_absent h (t := t') (n := n) (before := b2)
      (later := later ++ .returned t n .err :: l2) (by rw [e, e2]; simp)
    rw [this.1] at hf
    cases hf

/-- The work that is left to do for a call. -/
def weight : Call → Nat
  | .looking _ => 3
  | .found _ _ => 2
  | .waiting _ _ => 1
  | _ => 0

/-- The work that is left to do. -/
def work (s : LruArch) : Nat := (s.calls.map weight).sum

theorem work_set {l : List Call} {t : Nat} {c₀ c : Call} (h : l[t]? = some c₀)
    (hw : weight c < weight c₀) : ((l.set t c).map weight).sum < (l.map weight).sum := by
  induction l generalizing t with
  | nil => simp at h
  | cons x l ih =>
    cases t with
    | zero =>
      simp at h; subst h
      simp only [List.set_cons_zero, List.map_cons, List.sum_cons]; omega
    | succ t =>
      simp at h
      simp only [List.set_cons_succ, List.map_cons, List.sum_cons]
      have := ih h; omega

/-- C43: reads do not block each other for ever: as long as a read is under way, some read can
go on, and there are only finitely many steps left for the reads that began. -/
theorem C43_no_deadlock {disk : ArchDir} {limit : Nat} {s : LruArch} {L : List LruEvent}
    (h : Run false disk limit s L) (hw : 0 < s.work) :
    ∃ s' L', Step false s L s' L' ∧ s'.work < s.work := by
  have hex : ∃ (t : Nat) (c : Call), s.calls[t]? = some c ∧ 0 < weight c := by
    unfold work at hw
    generalize s.calls = l at hw
    induction l with
    | nil => simp at hw
    | cons x l ih =>
      by_cases hx : 0 < weight x
      · exact ⟨0, x, rfl, hx⟩
      · simp only [List.map_cons, List.sum_cons] at hw
        obtain ⟨t, c, h1, h2⟩ := ih (by omega)
        exact ⟨t + 1, c, by simpa using h1, h2⟩
  have owner : ∀ (t : Nat) (n : LayerName), (s.calls[t]? = some (.looking n) ∨ ∃ r, s.calls[t]? = some (.found n r)) →
      ∃ s' L', Step false s L s' L' ∧ s'.work < s.work := by
    intro t n ho
    rcases ho with ho | ⟨r, ho⟩
    · exact ⟨_, _, .look ho, work_set ho (Nat.le_refl 3)⟩
    · refine ⟨_, _, .finish ho, ?_⟩
      obtain ⟨c, e, -⟩ := h.inv.finish_eq ho
      rw [e]
      exact work_set ho (Nat.zero_lt_succ 1)
  obtain ⟨t, c, hc, hp⟩ := hex
  cases c with
  | looking n => exact owner t n (Or.inl hc)
  | found n r => exact owner t n (Or.inr ⟨r, hc⟩)
  | waiting n on =>
    rcases (h.inv.calls t _ hc).2 with ho | ⟨r, ho⟩ | ⟨r, v, ho⟩ | ⟨hf, -⟩
    · exact owner on n (Or.inl ho)
    · exact owner on n (Or.inr ⟨r, ho⟩)
    · exact ⟨_, _, .wake hc ho rfl, work_set hc (Nat.zero_lt_one)⟩
    · exact absurd hf Bool.false_ne_true
  | done n r v => exact absurd hp (Nat.lt_irrefl 0)
  | cancelled n v => exact absurd hp (Nat.lt_irrefl 0)

/-! ### Metadata and files in a layer -/

/-- C43: existence and rollup of a layer are those that the directory gives, and so is the size, except
if somebody read the layer while it was being written. -/
theorem C43_metadata_partial {cancels : Bool} {disk : ArchDir} {limit : Nat} {s : LruArch}
    {L : List LruEvent} (h : Run cancels disk limit s L) (n : LayerName) :
    s.layerExists n = s.disk.layerExists n ∧ s.getRollup n = s.disk.getRollup n ∧
      ((∀ u, .torn u n ∉ L) → s.layerSize n = s.disk.layerSize n) := by
  refine ⟨?_, rfl, fun ht => ?_⟩
  · unfold LruArch.layerExists
    split
    · rename_i b hp
      obtain ⟨x, h1, -⟩ := h.inv.right n b hp
      unfold ArchDir.layerExists
      rw [h1]; rfl
    · rfl
  · unfold LruArch.layerSize
    split
    · rename_i b hp
      obtain ⟨x, h1, -, h3⟩ := h.inv.right n b hp
      obtain ⟨rfl, -⟩ := h3 ht
      unfold ArchDir.layerSize ArchDir.open
      rw [h1]; rfl
    · rfl

/-- C43: for archives as `ArchiveLayerStore` writes them (`C41_archived_files`), existence and
size of each file in a layer are those that the directory gives, except if somebody read the layer
while it was being written. -/
theorem C43_file_metadata_partial {cancels : Bool} {disk : ArchDir} {limit : Nat} {s : LruArch}
    {L : List LruEvent} (h : Run cancels disk limit s L) (c : OffsetCodec) (n : LayerName)
    (ht : ∀ u, .torn u n ∉ L)
    (hw : ∀ b, s.disk.file n = some b → ∃ files, b = Archive.encode c files ∧ Archive.Writable files)
    (k : FileKind) :
    s.layerFileExists n k = s.disk.layerFileExists n k ∧
      s.getStructureSize c n k = s.disk.getStructureSize c n k := by
  refine ⟨?_, ?_⟩
  · unfold LruArch.layerFileExists
    split
    · rename_i b hp
      obtain ⟨b', hf, -, h3⟩ := h.inv.right n b hp
      obtain ⟨rfl, -⟩ := h3 ht
      obtain ⟨files, rfl, hwr⟩ := hw b hf
      unfold ArchDir.layerFileExists
      rw [hf]
      simp only [Archive.encode_getU64]
      rfl
    · rfl
  · unfold LruArch.getStructureSize
    split
    · rename_i b hp
      obtain ⟨b', hf, -, h3⟩ := h.inv.right n b hp
      obtain ⟨rfl, -⟩ := h3 ht
      obtain ⟨files, rfl, hwr⟩ := hw b hf
      unfold ArchDir.getStructureSize
      rw [ArchDir.open_eq hf, Archive.parse_encode c hwr]
      show _ = (ArchiveHeader.parseFromReader c (Archive.encode c files)).bind _
      rw [Archive.parseFromReader_encode c hwr]
      rfl
    · rfl

/-- C43: for such archives, the bytes of each file in a layer are those that the directory
gives, if the parts of the call see what the theorems above say. -/
theorem C43_file_bytes (c : OffsetCodec) (d : ArchDir) (limit : Nat) (n : LayerName)
    (hw : ∀ b, d.file n = some b → ∃ files, b = Archive.encode c files ∧ Archive.Writable files)
    (k : FileKind) :
    structureBytes c limit (d.layerSize n) (d.getLayerBytes n) (d.getStructureBytes c n k) k =
      d.getStructureBytes c n k ∧
    getParent (d.getStructureBytes c n FileKind.parent) = d.getParent c n := by
  refine ⟨?_, rfl⟩
  cases hf : d.file n with
  | none =>
    have h1 : d.layerSize n = .err := by unfold ArchDir.layerSize ArchDir.open; rw [hf]; rfl
    have h2 : d.getStructureBytes c n k = .err := by
      unfold ArchDir.getStructureBytes ArchDir.open; rw [hf]; rfl
    rw [h1, h2]; rfl
  | some b =>
    obtain ⟨files, rfl, hwr⟩ := hw b hf
    have h1 : d.layerSize n = .ok (Archive.encode c files).length := by
      unfold ArchDir.layerSize ArchDir.open; rw [hf]; rfl
    have h2 : d.getLayerBytes n = .ok (Archive.encode c files) := by
      unfold ArchDir.getLayerBytes ArchDir.open; rw [hf]; rfl
    have h3 : Archive.sliceFor c (Archive.encode c files) k = d.getStructureBytes c n k := by
      unfold Archive.sliceFor
      rw [Archive.parse_encode c hwr]
      show ((Archive.header files).rangeFor k).bind _ = _
      by_cases hk : ∃ x, (k, x) ∈ files
      · obtain ⟨x, hx⟩ := hk
        rw [ArchDir.getStructureBytes_some hwr hf hx]
        obtain ⟨s, r, g1, g2, g3, -⟩ := Archive.rangeFor_some hwr hx
        rw [g1]
        show (Archive.slice (Archive.data files) s (s + x.length)).bind _ = _
        unfold Archive.slice
        rw [if_pos ⟨by omega, g3⟩, g2, Nat.add_sub_cancel_left, List.take_left]
        rfl
      · have hk : ∀ x, (k, x) ∉ files := fun x hx => hk ⟨x, hx⟩
        rw [ArchDir.getStructureBytes_none hwr hf hk, Archive.rangeFor_none hk]
        rfl
    rw [h1, h2]
    unfold structureBytes
    show (fits limit (.ok (Archive.encode c files).length)).bind _ = _
    show (match decide (limit ≠ 0 ∧ (Archive.encode c files).length ≤ limit) with
      | true => Archive.sliceFor c (Archive.encode c files) k
      | false => d.getStructureBytes c n k) = _
    rw [h3]
    split <;> rfl

/-- C43: for such archives, reading a file in a layer from an offset, through the cache or past
it, follows its contents; a missing file is an error. -/
theorem C43_file_stream (c : OffsetCodec) (d : ArchDir) (limit : Nat) (n : LayerName)
    {files : List (FileKind × Bytes)} (hw : Archive.Writable files)
    (hf : d.file n = some (Archive.encode c files)) (k : FileKind) (off : Nat) :
    ((∀ x, (k, x) ∉ files) → readFrom limit (d.layerSize n) (d.getStructureBytes c n k)
      (d.readFrom c n k off) off = .err) ∧
    ∀ x, (k, x) ∈ files → off ≤ x.length →
      (readFrom limit (d.layerSize n) (d.getStructureBytes c n k) (d.readFrom c n k off) off =
        .ok (.inl (x.drop off)) ∨
      ∃ r, readFrom limit (d.layerSize n) (d.getStructureBytes c n k) (d.readFrom c n k off) off =
        .ok (.inr r) ∧ ∀ tr, r.Reads tr → FileSpec.Follows (x.drop off) tr) := by
  have h1 : d.layerSize n = .ok (Archive.encode c files).length := by
    unfold ArchDir.layerSize ArchDir.open; rw [hf]; rfl
  have hr : ∀ (bytes : Out (Option Bytes)) (origin : Out SliceReader),
      readFrom limit (d.layerSize n) bytes origin off =
      if limit ≠ 0 ∧ (Archive.encode c files).length ≤ limit then
        bytes.bind (fun b => (ArchiveHeader.orErr b).bind (fun b =>
          if b.length < off then .panic else .ok (.inl (b.drop off))))
      else origin.bind (fun r => .ok (.inr r)) := by
    intro bytes origin
    rw [h1]
    unfold readFrom
    show (fits limit (.ok (Archive.encode c files).length)).bind _ = _
    unfold fits
    by_cases hl : limit ≠ 0 ∧ (Archive.encode c files).length ≤ limit
    · show (Out.ok (decide _)).bind _ = _
      rw [decide_eq_true hl, if_pos hl]; rfl
    · show (Out.ok (decide _)).bind _ = _
      rw [decide_eq_false hl, if_neg hl]; rfl
  refine ⟨fun hk => ?_, fun x hx ho => ?_⟩
  · rw [hr, ArchDir.getStructureBytes_none hw hf hk, ArchDir.readFrom_none hw hf hk]
    split <;> rfl
  · rw [hr, ArchDir.getStructureBytes_some hw hf hx]
    split
    · left
      show (if x.length < off then _ else _) = _
      rw [if_neg (by omega)]
    · right
      obtain ⟨r, g1, g2, g3⟩ := ArchDir.readFrom_some hw hf hx ho
      exact ⟨r, by rw [g1]; rfl, fun tr htr => SliceReader.follows htr (by simp [g2]) g3⟩

/-- An archive as in the theorems above. -/
example : Archive.Writable [(2, [1, 2]), (0, [3]), (14, [])] := ⟨by decide, by decide⟩

/-! ### The limit -/

/-- The limit does nothing: what is in the cache stays for ever. -/
theorem C43_never_evicts {cancels : Bool} {disk : ArchDir} {limit : Nat} {s s' : LruArch}
    {L L' : List LruEvent} (h : Run cancels disk limit s L) (hs : Step cancels s L s' L')
    {n : LayerName} {b : Bytes} (hp : s.cache.peek n = some (.resolved b)) :
    s'.cache.peek n = some (.resolved b) := by
  cases hs with
  | start m =>
    unfold LruArch.start
    split
    · show (s.cache.promote m).peek n = _
      rw [Cache.peek_promote]; exact hp
    · show (s.cache.promote m).peek n = _
      rw [Cache.peek_promote]; exact hp
    · rename_i hm
      show (s.cache.getOrInsert m _).peek n = _
      rw [Cache.peek_getOrInsert]
      split
      · rename_i e; subst e; rw [hm] at hp; cases hp
      · exact hp
  | finish hc =>
    rename_i t m r
    obtain ⟨hr, -⟩ := h.inv.calls t _ hc
    have e : n ≠ m := by rintro rfl; rw [hp] at hr; cases hr
    obtain ⟨c, e1, hcc⟩ := h.inv.finish_eq hc
    rw [e1]
    show c.peek n = _
    rcases hcc with rfl | ⟨b', -, rfl⟩
    · rw [Cache.peek_without, if_neg e]; exact hp
    · rw [Cache.peek_setMut, if_neg e]; exact hp
  | @storeCache _ m b' hd _ =>
    show (s.cache.getOrInsert m _).peek n = _
    rw [Cache.peek_getOrInsert]
    split
    · rename_i e; subst e; rw [hp]; rfl
    · exact hp
  | setRollup hr =>
    obtain ⟨d, rfl, -⟩ := setRollup_disk hr
    exact hp
  | _ => exact hp

private def m1 : LayerName := ⟨1, 2, 3, 4, 5⟩
private def m2 : LayerName := ⟨6, 7, 8, 9, 10⟩

/-- C43 is false as to the limit: for every limit there is an execution of two reads, of
layers that each fit, after which the cache holds twice the limit. -/
theorem C43_limit_wrong (limit : Nat) (hl : 0 < limit) :
    ∃ disk s L, Run false disk limit s L ∧ limit < s.held ∧
      ∀ n b, disk.getLayerBytes n = .ok b → b.length ≤ limit := by
  let B := List.replicate limit 0
  let d : ArchDir := { larch := [(m1, B), (m2, B)] }
  have hB : B.length = limit := List.length_replicate
  have hne : m2 ≠ m1 := by decide
  let s0 : LruArch := { disk := d, limit }
  let s1 : LruArch := { disk := d, limit, cache := [(m1, .resolving 0)], calls := [.looking m1] }
  let s2 : LruArch := { disk := d, limit, cache := [(m1, .resolving 0)], calls := [.found m1 (.ok B)] }
  let c3 : Cache := [(m1, .resolved B)]
  let s3 : LruArch := { disk := d, limit, cache := c3, calls := [.done m1 (.ok B) (some (.ok B))] }
  have r0 : Run false d limit s0 [] := .start
  have r1 : Run false d limit s1 [.called 0 m1] := r0.step (.start m1)
  have r2 : Run false d limit s2 [.called 0 m1] := r1.step (.look (t := 0) (n := m1) rfl)
  have f3 : s2.finish 0 m1 (.ok B) = s3 := by
    show (match Cache.ensureEnough [(m1, .resolving 0)] limit 0 B.length with
      | none => _
      | some (some c) => _
      | some none => _) = _
    rw [Cache.ensureEnough_zero, if_neg (by omega)]
    rfl
  have r3 : Run false d limit s3 [.returned 0 m1 (.ok B), .called 0 m1] := by
    have := r2.step (.finish (t := 0) (n := m1) (r := .ok B) rfl)
    rw [f3] at this
    exact this
  let s4 : LruArch := { s3 with
    cache := (m2, .resolving 1) :: c3, calls := s3.calls ++ [.looking m2] }
  let s5 : LruArch := { s4 with calls := s3.calls ++ [.found m2 (.ok B)] }
  let s6 : LruArch := { s4 with
    cache := (m2, .resolved B) :: c3, calls := s3.calls ++ [.done m2 (.ok B) (some (.ok B))] }
  have r4 := r3.step (.start m2)
  have e4 : s3.start m2 = s4 := rfl
  rw [e4] at r4
  have r5 := r4.step (.look (t := 1) (n := m2) rfl)
  have e5 : s4.look 1 m2 = s5 := rfl
  rw [e5] at r5
  have r6 := r5.step (.finish (t := 1) (n := m2) (r := .ok B) rfl)
  have f6 : s5.finish 1 m2 (.ok B) = s6 := by
    show (match Cache.ensureEnough ((m2, .resolving 1) :: c3) limit 0 B.length with
      | none => _
      | some (some c) => _
      | some none => _) = _
    rw [Cache.ensureEnough_zero, if_neg (by omega)]
    rfl
  rw [f6] at r6
  refine ⟨d, s6, _, r6, ?_, ?_⟩
  · show limit < B.length + (B.length + 0)
    omega
  · intro n b hb
    unfold ArchDir.getLayerBytes ArchDir.open ArchDir.file at hb
    show b.length ≤ limit
    cases hlk : d.larch.lookup n with
    | none => rw [hlk] at hb; cases hb
    | some x =>
      rw [hlk] at hb
      cases hb
      have := lookup_mem hlk
      simp only [d, List.mem_cons, Prod.mk.injEq, List.not_mem_nil, or_false] at this
      rcases this with ⟨-, rfl⟩ | ⟨-, rfl⟩ <;> omega

/-- A layer that is stored goes into the cache whatever the limit is. -/
theorem C43_store_ignores_limit (limit : Nat) :
    ∃ s L, Run false {} limit s L ∧ limit < s.held := by
  let B := List.replicate (limit + 1) 0
  have hB : B.length = limit + 1 := List.length_replicate
  have hf : ∀ s : LruArch, s.disk.file m1 = some [] →
      (s.storeWrite m1 B limit).disk.file m1 = some B := by
    intro s hs
    show (s.disk.storeLayerFile m1 ((s.disk.file m1).getD [] ++ B.take (limit + 1))).file m1 = _
    have := storeLayerFile_more hs (B.take (limit + 1)) m1
    rw [hs]
    rw [if_pos rfl] at this
    rw [show (some []).getD ([] : Bytes) = [] from rfl, this, ← hB, List.take_length]
    rfl
  have r := Run.start (cancels := false) (disk := {}) (limit := limit)
  have r := r.step (.storeOpen (n := m1) B rfl)
  have r := r.step (.storeWrite (n := m1) (rest := B) limit rfl (by
    intro h
    rw [h] at hB
    cases hB))
  have r := r.step (.storeEnd (n := m1) (b := B) (by
    show some (B.drop (limit + 1)) = _
    rw [← hB, List.drop_length]) (hf _ rfl))
  have r := r.step (.storeCache (n := m1) (b := B) (hf _ rfl) rfl)
  refine ⟨_, _, r, ?_⟩
  show limit < B.length + 0
  omega

/-! ### Where the cache shows -/

/-- C43 is false in one more case: a read that begins after a layer was stored can fail,
because another read, which began before, looked for it too early. -/
theorem C43_stale_miss_wrong : ∃ s L before, Run false {} 1000 s L ∧
    L = .returned 1 m1 .err :: before ∧ .stored m1 [7] ∈ beforeCall 1 before ∧
    s.disk.getLayerBytes m1 = .ok [7] := by
  have r := Run.start (cancels := false) (disk := {}) (limit := 1000)
  have r := r.step (.start m1)
  have r := r.step (.look (t := 0) (n := m1) rfl)
  have r := r.step (.storeOpen (n := m1) [7] rfl)
  have r := r.step (.storeWrite (n := m1) (rest := [7]) 0 rfl (by decide))
  have r := r.step (.storeEnd (n := m1) (b := [7]) rfl rfl)
  have r := r.step (.storeCache (n := m1) (b := [7]) rfl rfl)
  have r := r.step (.start m1)
  have r := r.step (.finish (t := 0) (n := m1) (r := .err) rfl)
  have r := r.step (.wake (t := 1) (n := m1) (on := 0) (w := .done m1 .err (some .err))
    (v := some .err) rfl rfl rfl)
  exact ⟨_, _, _, r, rfl, by decide, rfl⟩

/-- C43 is false if somebody reads a layer while it is being written, as when a layer is imported that
others already ask for: the part that was read stays in the cache, so that reads that begin after the
layer was stored return the part and not the layer. -/
theorem C43_torn_wrong : ∃ s L before, Run false {} 1000 s L ∧
    L = .returned 1 m1 (.ok [7]) :: before ∧ .stored m1 [7, 8] ∈ beforeCall 1 before ∧
    s.disk.getLayerBytes m1 = .ok [7, 8] ∧ s.cache.peek m1 = some (.resolved [7]) ∧
    s.layerSize m1 = .ok 1 ∧ s.disk.layerSize m1 = .ok 2 := by
  have r := Run.start (cancels := false) (disk := {}) (limit := 1000)
  have r := r.step (.storeOpen (n := m1) [7, 8] rfl)
  have r := r.step (.storeWrite (n := m1) (rest := [7, 8]) 0 rfl (by decide))
  have r := r.step (.start m1)
  have r := r.step (.look (t := 0) (n := m1) rfl)
  have r := r.step (.finish (t := 0) (n := m1) (r := .ok [7]) rfl)
  have r := r.step (.storeWrite (n := m1) (rest := [8]) 0 rfl (by decide))
  have r := r.step (.storeEnd (n := m1) (b := [7, 8]) rfl rfl)
  have r := r.step (.storeCache (n := m1) (b := [7, 8]) rfl rfl)
  have r := r.step (.start m1)
  exact ⟨_, _, _, r, rfl, by decide, rfl, rfl, rfl, rfl⟩

/-- A layer whose lookup was cancelled. -/
def Wedged (s : LruArch) (n : LayerName) : Prop :=
  ∃ t, s.cache.peek n = some (.resolving t) ∧ s.calls[t]? = some (.cancelled n none)

/-- C43 is false if futures are dropped: when the future of a read is dropped while it reads
the file, the layer stays in that state, -/
theorem C43_cancel_wedges {disk : ArchDir} {limit : Nat} {s s' : LruArch} {L L' : List LruEvent}
    (h : Run true disk limit s L) (hs : Step true s L s' L') {n : LayerName} (hw : Wedged s n) :
    Wedged s' n := by
  obtain ⟨t, hp, hc⟩ := hw
  have other : ∀ (u : Nat) (c c' : Call), s.calls[u]? = some c → c ≠ .cancelled n none →
      (s.calls.set u c')[t]? = some (.cancelled n none) := by
    intro u c c' hu hne
    have : t ≠ u := by rintro rfl; rw [hc] at hu; cases hu; exact hne rfl
    rw [get_set hu, if_neg this]; exact hc
  have push : ∀ c, (s.calls ++ [c])[t]? = some (.cancelled n none) := by
    intro c
    rw [List.getElem?_append_left (lt_of_get hc)]; exact hc
  cases hs with
  | start m =>
    refine ⟨t, ?_, ?_⟩
    · unfold LruArch.start
      split
      · show (s.cache.promote m).peek n = _
        rw [Cache.peek_promote]; exact hp
      · show (s.cache.promote m).peek n = _
        rw [Cache.peek_promote]; exact hp
      · rename_i hm
        show (s.cache.getOrInsert m _).peek n = _
        rw [Cache.peek_getOrInsert]
        split
        · rename_i e; subst e; rw [hm] at hp; cases hp
        · exact hp
    · unfold LruArch.start
      split <;> exact push _
  | look hu => exact ⟨t, hp, other _ _ _ hu (by intro h; cases h)⟩
  | finish hu =>
    rename_i u m r
    obtain ⟨hr, -⟩ := h.inv.calls u _ hu
    have e : n ≠ m := by
      rintro rfl
      rw [hp] at hr; cases hr
      rw [hc] at hu; cases hu
    obtain ⟨c, e1, hcc⟩ := h.inv.finish_eq hu
    rw [e1]
    refine ⟨t, ?_, other _ _ _ hu (by intro h; cases h)⟩
    show c.peek n = _
    rcases hcc with rfl | ⟨b', -, rfl⟩
    · rw [Cache.peek_without, if_neg e]; exact hp
    · rw [Cache.peek_setMut, if_neg e]; exact hp
  | wake hu _ _ => exact ⟨t, hp, other _ _ _ hu (by intro h; cases h)⟩
  | storeOpen b _ => exact ⟨t, hp, hc⟩
  | storeWrite k _ _ => exact ⟨t, hp, hc⟩
  | storeEnd _ _ => exact ⟨t, hp, hc⟩
  | @storeCache _ m b' hd _ =>
    refine ⟨t, ?_, hc⟩
    show (s.cache.getOrInsert m _).peek n = _
    rw [Cache.peek_getOrInsert]
    split
    · rename_i e; subst e; rw [hp]; rfl
    · exact hp
  | setRollup hr =>
    obtain ⟨d, rfl, -⟩ := setRollup_disk hr
    exact ⟨t, hp, hc⟩
  | cancelLooking _ hu => exact ⟨t, hp, other _ _ _ hu (by intro h; cases h)⟩
  | cancelFound _ hu => exact ⟨t, hp, other _ _ _ hu (by intro h; cases h)⟩
  | cancelWaiting _ hu => exact ⟨t, hp, other _ _ _ hu (by intro h; cases h)⟩

/-- and every read of it that begins then waits for a barrier that was left empty, which is a
panic. -/
theorem C43_cancel_panics {s : LruArch} {n : LayerName} (hw : Wedged s n) (L : List LruEvent) :
    ∃ t, (s.start n).calls[s.calls.length]? = some (.waiting n t) ∧
      Step true (s.start n) L ((s.start n).wake s.calls.length n none)
        (.returned s.calls.length n .panic :: L) := by
  obtain ⟨t, hp, hc⟩ := hw
  have e : s.start n = { s with cache := s.cache.promote n, calls := s.calls ++ [.waiting n t] } := by
    unfold LruArch.start; rw [hp]
  refine ⟨t, ?_, ?_⟩
  · rw [e]; simp
  · have h1 : (s.start n).calls[s.calls.length]? = some (.waiting n t) := by rw [e]; simp
    have h2 : (s.start n).calls[t]? = some (.cancelled n none) := by
      rw [e]
      show (s.calls ++ [_])[t]? = _
      rw [List.getElem?_append_left (lt_of_get hc)]; exact hc
    exact .wake h1 h2 rfl

/-- Such a state is reached from a directory that has the layer. -/
theorem C43_cancel_reached : ∃ s L, Run true { larch := [(m1, [7])] } 1000 s L ∧ Wedged s m1 ∧
    s.disk.getLayerBytes m1 = .ok [7] := by
  have r := Run.start (cancels := true) (disk := { larch := [(m1, [7])] }) (limit := 1000)
  have r := r.step (.start m1)
  have r := r.step (.cancelLooking (t := 0) (n := m1) rfl rfl)
  exact ⟨_, _, r, ⟨0, rfl, rfl⟩, rfl⟩

/-! ### Two reads at once -/

/-- A run in which two reads of a layer overlap, a third comes later, and one fails. -/
example : ∃ s L, Run false { larch := [(m1, [7])] } 1000 s L ∧
    .returned 0 m1 (.ok [7]) ∈ L ∧ .returned 1 m1 (.ok [7]) ∈ L ∧ .returned 2 m1 (.ok [7]) ∈ L ∧
    .returned 3 m2 .err ∈ L := by
  have r := Run.start (cancels := false) (disk := { larch := [(m1, [7])] }) (limit := 1000)
  have r := r.step (.start m1)
  have r := r.step (.start m1)
  have r := r.step (.look (t := 0) (n := m1) rfl)
  have r := r.step (.finish (t := 0) (n := m1) (r := .ok [7]) rfl)
  have r := r.step (.start m1)
  have r := r.step (.start m2)
  have r := r.step (.look (t := 3) (n := m2) rfl)
  have r := r.step (.wake (t := 1) (n := m1) (on := 0) (w := .done m1 (.ok [7]) (some (.ok [7])))
    (v := some (.ok [7])) rfl rfl rfl)
  have r := r.step (.finish (t := 3) (n := m2) (r := .err) rfl)
  exact ⟨_, _, r, by decide, by decide, by decide, by decide⟩

end LruArch

end Verif
