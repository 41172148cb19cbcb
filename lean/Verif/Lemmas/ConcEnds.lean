import Verif.Lemmas.ConcPlay

/-!
How many steps a call takes (`Verif.Conc.advance`), and that it can always make the next one.
-/

set_option linter.unusedSectionVars false

namespace Verif.Conc

open Spec SimpleBuilder Store Api

variable {K V L : Type} [LinearOrder K] [LinearOrder V] [DecidableEq L]
  {M N : Shop K V L} {t : Nat} {st : Stage K V L}

/-! ### Calls that do not start again -/

/-- At most so many more steps are made from this stage on, if it is not the first one. -/
def Stage.rank : Stage K V L → Nat
  | .start _ => 8
  | .fetch (.answer _) _ _ => 2
  | .fetch (.use _) _ _ => 7
  | .search (.answer _) _ _ => 1
  | .search (.use _) _ _ => 6
  | .holds _ _ => 5
  | .reading _ _ => 4
  | .asking _ _ _ _ => 2
  | .setting _ _ _ _ => 1
  | .writing _ _ => 3
  | .rolling _ _ _ => 3
  | .written _ _ => 2
  | .invalidating _ => 1
  | .taken _ _ _ => 3
  | .applying _ ops _ => ops.length + 1
  | .done _ _ => 0

/-- The call has begun, and does not start again. -/
def Stage.calm : Stage K V L → Prop
  | .start _ => False
  | .asking c _ _ _ | .setting c _ _ _ => ¬ isForce c
  | _ => True

theorem done_of_rank (h : st.rank = 0) : ∃ r ls, st = .done r ls := by
  cases st with
  | done r ls => exact ⟨r, ls, rfl⟩
  | fetch g n m => cases g <;> simp [Stage.rank] at h
  | search g n k => cases g <;> simp [Stage.rank] at h
  | _ => simp [Stage.rank] at h

/-- At most `k` more steps. -/
def Few (k : Nat) (st : Stage K V L) : Prop := st.calm ∧ st.rank ≤ k

theorem Few.done {k : Nat} {r : Ans K V L} {ls : List (InternalLayer K V)} : Few k (.done r ls) :=
  ⟨trivial, Nat.zero_le _⟩

theorem few_land {g : Goal K V L} {l : InternalLayer K V} {n : Name} {k : Nat} :
    Few ((Stage.search g n k).rank - 1) (land g l) := by
  cases g with
  | answer r => exact ⟨trivial, Nat.le_refl _⟩
  | use c => exact ⟨trivial, Nat.le_refl _⟩

theorem few_look {g : Goal K V L} {n : Name} {m : Ans K V L} :
    Few ((Stage.fetch g n m).rank - 1) (look M g n m) := by
  unfold look
  split
  · cases g with
    | answer r => exact ⟨trivial, Nat.zero_le _⟩
    | use c => exact ⟨trivial, Nat.le_succ _⟩
  · split
    · cases g <;> exact ⟨trivial, Nat.le_refl _⟩
    · exact .done

theorem few_ends {g : Goal K V L} {n : Name} {k : Nat}
    {o : Out (Option (InternalLayer K V) × List (InternalLayer K V))} :
    Few ((Stage.search g n k).rank - 1) (ends g o).1 := by
  unfold ends
  split
  · exact few_land
  all_goals exact .done

theorem few_planned {next : Plan K V → Stage K V L} {o : Out (Plan K V)} {k : Nat}
    (h : ∀ pl, Few k (next pl)) : Few k (planned next o) := by
  unfold planned
  split
  · exact h _
  all_goals exact .done

theorem few_withLayer {s : Session K V L} {i k : Nat} {f : InternalLayer K V → Stage K V L}
    (h : ∀ l, Few k (f l)) : Few k (withLayer s i f) := by
  unfold withLayer
  split
  · exact h _
  · exact .done

theorem few_reading {s : Session K V L} {l : L} {k : Nat} {f : LabelData Name → Stage K V L}
    (h : ∀ d, Few k (f d)) : Few k (reading s l f) := by
  unfold reading
  split
  · exact h _
  · exact .done

theorem few_taking {s : Session K V L} {b : Nat} {load : Bool} : Few 7 (taking s b load).1 := by
  unfold taking
  split
  · exact .done
  · split
    · exact .done
    · exact ⟨trivial, by simp [Stage.rank]⟩

/-- The first step. -/
theorem few_begins {ch : Choice K V L} {c : Req K V L} (hf : ¬ isForce c) (ha : ¬ isApply c) :
    Few 7 (begins M ch c).1 := by
  cases c with
  | head l =>
    refine few_reading fun d => ?_
    split
    · exact .done
    · exact ⟨trivial, by simp [Stage.rank]⟩
  | setHead l h =>
    refine few_withLayer fun x => few_reading fun d => ?_
    split
    · exact ⟨id, by simp [Stage.rank]⟩
    · exact ⟨id, by simp [Stage.rank]⟩
  | forceSetHead l h => exact (hf trivial).elim
  | forceSetHeadVersion l h v =>
    refine few_withLayer fun x => few_reading fun d => ?_
    split
    · exact .done
    · exact ⟨id, by simp [Stage.rank]⟩
  | getLayer n =>
    have := few_look (M := M) (g := .answer (.layer 0)) (n := n) (m := .absent)
    exact ⟨this.1, Nat.le_trans this.2 (by simp [Stage.rank])⟩
  | merge ns => exact few_planned fun pl => ⟨trivial, by simp [Stage.rank]⟩
  | parent h =>
    refine few_withLayer fun x => ?_
    split
    · exact .done
    · exact ⟨trivial, by simp [Stage.rank]⟩
  | openWrite h => exact few_withLayer fun x => ⟨trivial, by simp [Stage.rank]⟩
  | squash h => exact few_withLayer fun x => ⟨trivial, by simp [Stage.rank]⟩
  | rollup h => exact few_withLayer fun x => ⟨trivial, by simp [Stage.rank]⟩
  | squashUpto h u => exact few_withLayer fun x => few_withLayer fun y => ⟨trivial, by simp [Stage.rank]⟩
  | rollupUpto h u => exact few_withLayer fun x => few_withLayer fun y => ⟨trivial, by simp [Stage.rank]⟩
  | impreciseRollupUpto h u => exact few_withLayer fun x => few_withLayer fun y => ⟨trivial, by simp [Stage.rank]⟩
  | commitNoLoad b => exact few_taking
  | commit b => exact few_taking
  | applyDelta b h => exact (ha trivial).elim
  | applyDiff b h => exact (ha trivial).elim
  | _ => exact .done

/-- The first step of `apply_delta` and `apply_diff`. -/
theorem calm_begins {ch : Choice K V L} {c : Req K V L} (hf : ¬ isForce c) :
    (begins M ch c).1.calm := by
  have happ : ∀ {b strict} {o : Out (List (Op K V))}, (applies ch b strict o).calm := by
    intro b strict o
    unfold applies
    split <;> trivial
  by_cases ha : isApply c
  · cases c with
    | applyDelta b h =>
      show Stage.calm (match M.session.builders[b]? with | none => _ | some _ => _)
      split
      · trivial
      · unfold withLayer
        split
        · exact happ
        · trivial
    | applyDiff b h =>
      show Stage.calm (match M.session.builders[b]? with | none => _ | some _ => _)
      split
      · trivial
      · unfold withLayer
        split
        · exact happ
        · trivial
    | _ => cases ha
  · exact (few_begins hf ha).1

theorem few_continues {s : Session K V L} {ch : Choice K V L} {c : Req K V L}
    {l : InternalLayer K V} : Few 3 (continues s ch c l).1 := by
  unfold continues
  split
  · split <;> exact .done
  · exact few_planned fun pl => ⟨trivial, by simp [Stage.rank]⟩
  · exact few_withLayer fun y => few_planned fun pl => ⟨trivial, by simp [Stage.rank]⟩
  · exact few_planned fun pl => ⟨trivial, by simp [Stage.rank]⟩
  · exact few_withLayer fun y => few_planned fun pl => ⟨trivial, by simp [Stage.rank]⟩
  · exact few_withLayer fun y => few_planned fun pl => ⟨trivial, by simp [Stage.rank]⟩
  · exact .done

theorem few_sets {s : Session K V L} {c : Req K V L} (hf : ¬ isForce c) {l : L} {n : Name}
    {d : LabelData Name} : Few 0 (sets s c l n d).1 := by
  unfold sets
  dsimp only
  split
  · exact (hf trivial).elim
  · exact (hf trivial).elim
  · exact .done
  · exact .done

/-- Each step brings a call nearer to its end. -/
theorem few_advance {ch : CChoice K V L} (h : st.calm) : Few (st.rank - 1) (advance M ch st).1 := by
  cases st with
  | start c => exact h.elim
  | fetch g n m => exact few_look
  | search g n k => exact few_ends
  | holds c l =>
    simp only [advance]
    split
    · exact ⟨trivial, Nat.le_refl _⟩
    · exact ⟨few_continues.1, Nat.le_succ_of_le few_continues.2⟩
  | reading c l =>
    simp only [advance]
    split
    · exact .done
    · exact few_continues
  | asking c l n d =>
    simp only [advance]
    split
    · exact ⟨h, by simp [Stage.rank]⟩
    · split
      · exact ⟨h, by simp [Stage.rank]⟩
      all_goals exact .done
  | setting c l n d => exact few_sets h
  | writing c pl =>
    simp only [advance]
    split
    · exact .done
    · exact ⟨trivial, by simp [Stage.rank]⟩
  | rolling c n pl => exact ⟨trivial, Nat.le_refl _⟩
  | written n r => exact ⟨trivial, Nat.le_refl _⟩
  | invalidating n => exact .done
  | taken x sb load =>
    simp only [advance]
    split
    · exact .done
    · cases load
      · exact .done
      · exact ⟨trivial, by simp [Stage.rank]⟩
  | applying b ops strict =>
    cases ops with
    | nil => exact .done
    | cons op ops =>
      simp only [advance]
      split
      · exact .done
      · dsimp only
        split
        · exact ⟨trivial, by simp [Stage.rank]⟩
        · exact .done
        · split
          · exact .done
          · exact ⟨trivial, by simp [Stage.rank]⟩
  | done r ls => exact .done

/-- What happens to a call that does not end. -/
theorem Next.call {e : Option (Conc.Event K V L)} (h : Next M e N) (ht : M.calls t = some st)
    (he : ∀ r, e ≠ some (.ret t r)) :
    (N.calls t = some st ∧ ∀ n, e ≠ some (.act t n)) ∨
      ∃ ch : CChoice K V L, ch.Possible M st ∧ e = some (.act t ch.base.new) ∧
        N = stepped M t (advance M ch st) := by
  cases h with
  | @inv u c hu =>
    refine .inl ⟨?_, by rintro n ⟨⟩⟩
    show (if t = u then _ else M.calls t) = _
    rw [if_neg]
    · exact ht
    · rintro rfl; rw [ht] at hu; cases hu
  | @act u st' ch hu hch =>
    by_cases h : t = u
    · subst h
      rw [ht] at hu
      cases hu
      exact .inr ⟨ch, hch, rfl, rfl⟩
    · refine .inl ⟨?_, by rintro n ⟨⟩; exact h rfl⟩
      show (if t = u then _ else M.calls t) = _
      rw [if_neg h]
      exact ht
  | @ret u r ls hu =>
    refine .inl ⟨?_, by rintro n ⟨⟩⟩
    show (if t = u then _ else M.calls t) = _
    rw [if_neg]
    · exact ht
    · rintro rfl; exact he _ rfl
  | cache => exact .inl ⟨ht, by rintro n ⟨⟩⟩
  | evict => exact .inl ⟨ht, by rintro n ⟨⟩⟩

theorem stepped_calls {r : Stage K V L × Session K V L × List (InternalLayer K V)} :
    (stepped M t r).calls t = some r.1 := if_pos rfl

/-- The steps of the call `t`. -/
theorem ownSteps_none {e : Option (Conc.Event K V L)} {rest : List (Conc.Event K V L)}
    (he : ∀ n, e ≠ some (.act t n)) : ownSteps t (e.toList ++ rest) = ownSteps t rest := by
  cases e with
  | none => rfl
  | some e =>
    cases e with
    | act u n =>
      have : u ≠ t := by rintro rfl; exact he n rfl
      simp [ownSteps, this]
    | _ => rfl

theorem ownSteps_act {n : Nat} {rest : List (Conc.Event K V L)} :
    ownSteps t ((some (Event.act t n)).toList ++ rest) = ownSteps t rest + 1 := by
  simp [ownSteps]

/-- After some of its steps, so many fewer are left. -/
theorem few_runs {evs : List (Conc.Event K V L)} (hr : Runs M evs N) :
    ∀ {st : Stage K V L} {k : Nat}, M.calls t = some st → Few k st → (∀ r, .ret t r ∉ evs) →
      ∃ st', N.calls t = some st' ∧ Few (k - ownSteps t evs) st' := by
  induction hr with
  | nil => intro st k ht hf _; exact ⟨st, ht, hf⟩
  | @cons M e M' rest N hn _ ih =>
    intro st k ht hf hr
    have hr' : ∀ r, .ret t r ∉ rest := fun r hm => hr r (List.mem_append_right _ hm)
    have he : ∀ r, e ≠ some (.ret t r) := by
      rintro r rfl
      exact hr r (List.mem_append_left _ (List.mem_singleton.2 rfl))
    rcases hn.call ht he with ⟨h1, h2⟩ | ⟨ch, _, rfl, rfl⟩
    · rw [ownSteps_none h2]
      exact ih h1 hf hr'
    · rw [ownSteps_act]
      have h1 := few_advance (M := M) (ch := ch) hf.1
      have h2 : Few (k - 1) (advance M ch st).1 :=
        ⟨h1.1, Nat.le_trans h1.2 (Nat.sub_le_sub_right hf.2 1)⟩
      obtain ⟨st', h3, h4⟩ := ih stepped_calls h2 hr'
      exact ⟨st', h3, by rw [Nat.add_comm, ← Nat.sub_sub]; exact h4⟩

theorem canEnd_of_rank {st : Stage K V L} (h : N.calls t = some st) (hf : Few 0 st) :
    ∃ r N', Next N (some (.ret t r)) N' := by
  obtain ⟨r, ls, rfl⟩ := done_of_rank (Nat.le_zero.1 hf.2)
  exact ⟨_, _, .ret h⟩

/-- The call has not begun, or has made its first step. -/
theorem begun {evs : List (Conc.Event K V L)} (hr : Runs M evs N) {P : Stage K V L → Prop}
    {c : Req K V L} (hP : ∀ (M : Shop K V L) ch, P (begins M ch c).1) :
    M.calls t = some (.start c) → (∀ r, .ret t r ∉ evs) →
      (N.calls t = some (.start c) ∧ ownSteps t evs = 0) ∨
      ∃ (M' : Shop K V L) (st : Stage K V L) (rest : List (Conc.Event K V L)),
        M'.calls t = some st ∧ P st ∧ Runs M' rest N ∧ ownSteps t evs = ownSteps t rest + 1 ∧
          ∀ r, .ret t r ∉ rest := by
  induction hr with
  | nil => intro ht _; exact .inl ⟨ht, rfl⟩
  | @cons M e M' rest N hn hr2 ih =>
    intro ht hr
    have hr' : ∀ r, .ret t r ∉ rest := fun r hm => hr r (List.mem_append_right _ hm)
    have he : ∀ r, e ≠ some (.ret t r) := by
      rintro r rfl
      exact hr r (List.mem_append_left _ (List.mem_singleton.2 rfl))
    rcases hn.call ht he with ⟨h1, h2⟩ | ⟨ch, _, rfl, rfl⟩
    · rw [ownSteps_none h2]
      exact ih h1 hr'
    · rw [ownSteps_act]
      exact .inr ⟨_, _, rest, stepped_calls, hP M ch.base, hr2, rfl, hr'⟩

/-! ### `force_set_head` -/

/-- `force_set_head` of the graph `l` is at this stage, and takes at most `k` more steps if the
label does not change. -/
inductive Forced (labels : LabelMap L Name) (l : L) : Nat → Stage K V L → Prop
  | start {h k} : 2 ≤ k → Forced labels l k (.start (.forceSetHead l h))
  | fresh {h n d k} : (∀ d', labels.get? l = some d' → d' = d) → 1 ≤ k →
      Forced labels l k (.setting (.forceSetHead l h) l n d)
  | stale {h n d k} : 3 ≤ k → Forced labels l k (.setting (.forceSetHead l h) l n d)
  | done {r ls k} : Forced labels l k (.done r ls)

variable {l : L} {k : Nat}

theorem forced_advance {ch : CChoice K V L} (h : Forced M.session.labels l k st) :
    Forced (advance M ch st).2.1.labels l (k - 1) (advance M ch st).1 := by
  have hset : ∀ {h n d}, ((∀ d', M.session.labels.get? l = some d' → d' = d) ∨ 3 ≤ k) →
      Forced (sets M.session (.forceSetHead l h) l n d).2.labels l (k - 1)
        (sets M.session (.forceSetHead l h) l n d).1 := by
    intro h n d hk
    unfold sets
    cases hg : M.session.labels.get? l with
    | none => rw [set_missing hg]; exact .done
    | some d' =>
      rcases hk with hk | hk
      · rw [hk d' hg] at hg
        rw [set_done hg]; exact .done
      · by_cases hv : d'.version = d.version
        · rcases set_same (disk := M.session.disk) (n := some n) hg hv with e | ⟨_, e⟩
          · rw [e]; exact .done
          · rw [e]; exact .start (by omega)
        · rw [set_late hg hv]; exact .start (by omega)
  cases h with
  | @start h _ hk =>
    show Forced M.session.labels l (k - 1) (withLayer M.session h fun x => reading M.session l fun d => _)
    unfold withLayer
    split
    · unfold reading
      split
      · rename_i d hd
        refine .fresh ?_ (by omega)
        intro d' hd'
        simp only [labelCall_get] at hd
        rw [hd'] at hd
        cases hd
        rfl
      · exact .done
    · exact .done
  | fresh h1 h2 => exact hset (.inl h1)
  | stale h1 => exact hset (.inr h1)
  | done => exact .done

theorem Forced.same {labels labels' : LabelMap L Name} (h : Forced labels l k st)
    (hl : labels'.get? l = labels.get? l) : Forced labels' l k st := by
  cases h with
  | start h1 => exact .start h1
  | fresh h1 h2 => exact .fresh (by rw [hl]; exact h1) h2
  | stale h1 => exact .stale h1
  | done => exact .done

theorem Forced.change {labels labels' : LabelMap L Name} (h : Forced labels l k st) :
    Forced labels' l (k + 2) st := by
  cases h with
  | start h1 => exact .start (by omega)
  | fresh h1 h2 => exact .stale (by omega)
  | stale h1 => exact .stale (by omega)
  | done => exact .done

theorem Turns.runs {evs : List (Conc.Event K V L)} {j : Nat} (h : Turns l M evs N j) :
    Runs M evs N := by
  induction h with
  | nil => exact .nil
  | same h1 _ _ ih => exact .cons h1 ih
  | other h1 _ _ ih => exact .cons h1 ih

theorem Runs.turns {evs : List (Conc.Event K V L)} (h : Runs M evs N) (l : L) :
    ∃ j, Turns l M evs N j := by
  induction h with
  | nil => exact ⟨0, .nil⟩
  | @cons M e M' rest N h1 _ ih =>
    obtain ⟨j, ih⟩ := ih
    by_cases h : M'.session.labels.get? l = M.session.labels.get? l
    · exact ⟨j, .same h1 h ih⟩
    · exact ⟨j + 1, .other h1 h ih⟩

theorem forced_zero {labels : LabelMap L Name} (h : Forced labels l 0 st) :
    ∃ r ls, st = .done r ls := by
  cases h with
  | start h => omega
  | fresh _ h => omega
  | stale h => omega
  | done => exact ⟨_, _, rfl⟩

theorem forced_runs {evs : List (Conc.Event K V L)} {j : Nat} (hr : Turns l M evs N j) :
    ∀ {st : Stage K V L} {k : Nat}, M.calls t = some st → Forced M.session.labels l k st →
      (∀ r, .ret t r ∉ evs) →
      ∃ st', N.calls t = some st' ∧ Forced N.session.labels l (k + 2 * j - ownSteps t evs) st' := by
  have finished : ∀ {M N : Shop K V L} {evs : List (Conc.Event K V L)} {st : Stage K V L} {k : Nat},
      Runs M evs N → M.calls t = some st → (∃ r ls, st = .done r ls) → (∀ r, .ret t r ∉ evs) →
      ∃ st', N.calls t = some st' ∧ Forced N.session.labels l k st' := by
    rintro M N evs st k h1 h2 ⟨r, ls, rfl⟩ h3
    obtain ⟨st', h4, h5⟩ := few_runs h1 h2 (Few.done (k := 0)) h3
    obtain ⟨r, ls, rfl⟩ := done_of_rank (Nat.le_zero.1 (Nat.le_trans h5.2 (Nat.sub_le ..)))
    exact ⟨_, h4, .done⟩
  have own : ∀ {M : Shop K V L} {e : Option (Conc.Event K V L)} {M' : Shop K V L} {st : Stage K V L}
      {k : Nat}, Next M e M' → (∀ r, e ≠ some (.ret t r)) → M.calls t = some st →
      Forced M.session.labels l k st →
      (∃ r ls, st = .done r ls) ∨ (M'.calls t = some st ∧ ∀ n, e ≠ some (.act t n)) ∨
        ∃ n st', 1 ≤ k ∧ e = some (.act t n) ∧ M'.calls t = some st' ∧
          Forced M'.session.labels l (k - 1) st' := by
    intro M e M' st k hn he ht hf
    by_cases hk : k = 0
    · subst hk; exact .inl (forced_zero hf)
    · rcases hn.call ht he with h | ⟨ch, _, rfl, rfl⟩
      · exact .inr (.inl h)
      · exact .inr (.inr ⟨_, _, by omega, rfl, stepped_calls, forced_advance hf⟩)
  induction hr with
  | nil => intro st k ht hf _; exact ⟨st, ht, hf⟩
  | @same M e M' rest N j hn hsame hrest ih =>
    intro st k ht hf hr
    have hr' : ∀ r, .ret t r ∉ rest := fun r hm => hr r (List.mem_append_right _ hm)
    have he : ∀ r, e ≠ some (.ret t r) := by
      rintro r rfl
      exact hr r (List.mem_append_left _ (List.mem_singleton.2 rfl))
    rcases own hn he ht hf with h | ⟨h1, h2⟩ | ⟨n, st', h1, rfl, h2, h3⟩
    · exact finished (.cons hn hrest.runs) ht h hr
    · rw [ownSteps_none h2]
      exact ih h1 (hf.same hsame) hr'
    · rw [ownSteps_act]
      obtain ⟨st'', h4, h5⟩ := ih h2 h3 hr'
      exact ⟨st'', h4, by
        rw [show k + 2 * j - (ownSteps t rest + 1) = k - 1 + 2 * j - ownSteps t rest by omega]
        exact h5⟩
  | @other M e M' rest N j hn _ hrest ih =>
    intro st k ht hf hr
    have hr' : ∀ r, .ret t r ∉ rest := fun r hm => hr r (List.mem_append_right _ hm)
    have he : ∀ r, e ≠ some (.ret t r) := by
      rintro r rfl
      exact hr r (List.mem_append_left _ (List.mem_singleton.2 rfl))
    rcases own hn he ht hf with h | ⟨h1, h2⟩ | ⟨n, st', h1, rfl, h2, h3⟩
    · exact finished (.cons hn hrest.runs) ht h hr
    · rw [ownSteps_none h2]
      obtain ⟨st'', h4, h5⟩ := ih h1 (hf.change (labels' := M'.session.labels)) hr'
      exact ⟨st'', h4, by
        rw [show k + 2 * (j + 1) - ownSteps t rest = k + 2 + 2 * j - ownSteps t rest by omega]
        exact h5⟩
    · rw [ownSteps_act]
      obtain ⟨st'', h4, h5⟩ := ih h2 (h3.change (labels' := M'.session.labels)) hr'
      exact ⟨st'', h4, by
        rw [show k + 2 * (j + 1) - (ownSteps t rest + 1) = k - 1 + 2 + 2 * j - ownSteps t rest by omega]
        exact h5⟩

/-! ### The next step -/

/-- A name that is not used yet. -/
theorem exists_new (s : Session K V L) :
    ∃ n : Name, s.store.get? n = none ∧ (∀ b ∈ s.builders, b.name ≠ n) ∧ n ∉ s.lost := by
  have big : ∀ xs : List Nat, ∃ n, ∀ x ∈ xs, x < n := by
    intro xs
    induction xs with
    | nil => exact ⟨0, by intro x hx; cases hx⟩
    | cons x xs ih =>
      obtain ⟨n, hn⟩ := ih
      refine ⟨max n (x + 1), fun y hy => ?_⟩
      rcases List.mem_cons.1 hy with rfl | hy
      · omega
      · have := hn y hy
        omega
  obtain ⟨n, hn⟩ := big (s.store.map Prod.fst ++ s.builders.map (·.name) ++ s.lost)
  refine ⟨n, ?_, ?_, fun hl => Nat.lt_irrefl _ (hn n (List.mem_append_right _ hl))⟩
  · cases hg : s.store.get? n with
    | none => rfl
    | some e =>
      have : ∀ st : Store K V, st.get? n = some e → n ∈ st.map Prod.fst := by
        intro st
        induction st with
        | nil => intro h; cases h
        | cons q st ih =>
          obtain ⟨m, e'⟩ := q
          intro h
          simp only [Store.get?] at h
          split at h
          · rename_i hm; subst hm; exact List.mem_cons_self ..
          · exact List.mem_cons_of_mem _ (ih h)
      exact (Nat.lt_irrefl _ (hn n (List.mem_append_left _ (List.mem_append_left _ (this _ hg))))).elim
  · rintro b hb rfl
    exact Nat.lt_irrefl _ (hn _ (List.mem_append_left _ (List.mem_append_right _ (List.mem_map.2 ⟨b, hb, rfl⟩))))

/-- A search that sees what could be seen since it began comes to its end. -/
theorem CSim.searchEnds {A : CState K V L} {w : World K V} (h : CSim M A w) {g : Goal K V L}
    {n : Name} {k : Nat} (ht : M.calls t = some (.search g n k)) {v : Nat → View K V} {i : Nat → Nat}
    (h1 : i 0 + k = M.seen.length) (h2 : ∀ t, i (t + 1) ≤ i t)
    (h3 : ∀ t, M.seen[i t]? = some (v t)) :
    ∃ f, ∀ f', f ≤ f' → getLayerView v f' M.session.store n = getLayerView v f M.session.store n := by
  have hm := h.calls t
  rw [ht] at hm
  generalize A.calls t = o at hm
  cases hm with
  | some hat =>
  cases hat with
  | @search _ _ _ _ pre post v0 _ hs hk hv =>
  have hi : i 0 = pre.length := by
    rw [hs, List.length_append, List.length_cons] at h1
    omega
  have h0 : v 0 = v0 := by
    have := h3 0
    rw [hi, hs, List.getElem?_append_right (Nat.le_refl _), Nat.sub_self] at this
    exact (Option.some.inj this).symm
  obtain ⟨f, g1, g2⟩ := sublist_index h.seen
  obtain ⟨k1, k2, k3⟩ := h.sim.layers.run.inv.views (i := fun t => f (i t)) (v := v)
    (fun t => g2 _ _ (h3 t)) (fun t => g1 _ _ (h2 t))
  obtain ⟨f0, k4⟩ := getLayerView_ends h.sim.layers.run.inv.ok k1 k2 k3
    (fun n r r' h1 h2 => h.sim.layers.flat n r r' h1 h2) (n := n) (by rw [h0]; exact hv)
  rw [h.sim.store] at k4
  obtain ⟨l, cs, k5⟩ := k4 f0 (Nat.le_refl _)
  exact ⟨f0, fun f' hf => by rw [k5]; exact getLayerView_more k5 hf⟩

/-- A call can make its next step. -/
theorem CSim.canStep {A : CState K V L} {w : World K V} (h : CSim M A w)
    (ht : M.calls t = some st) : ∃ ch : CChoice K V L, ch.Possible M st := by
  obtain ⟨new, h1, h2, h3⟩ := exists_new M.session
  by_cases hs : ∃ g n k, st = .search g n k
  · obtain ⟨g, n, k, rfl⟩ := hs
    have hm := h.calls t
    rw [ht] at hm
    generalize A.calls t = o at hm
    cases hm with
    | some hat =>
    cases hat with
    | @search _ _ _ _ pre post v0 _ hs hk hv =>
    have hi : pre.length + k = M.seen.length := by
      rw [hs, List.length_append, List.length_cons]
      omega
    have hv0 : M.seen[pre.length]? = some v0 := by
      rw [hs, List.getElem?_append_right (Nat.le_refl _), Nat.sub_self]
      rfl
    obtain ⟨f, hf⟩ := h.searchEnds ht (v := fun _ => v0) (i := fun _ => pre.length) hi
      (fun _ => Nat.le_refl _) (fun _ => hv0)
    refine ⟨⟨plainChoice new, fun _ => v0, f⟩, plainChoice_possible h1 h2 h3, ?_, ?_⟩
    · rintro g' n' k' e
      cases e
      exact ⟨fun _ => pre.length, hi, fun _ => Nat.le_refl _, fun _ => hv0⟩
    · rintro g' n' k' e
      cases e
      exact hf
  · refine ⟨⟨plainChoice new, fun _ => ⟨[], noCache⟩, 0⟩, plainChoice_possible h1 h2 h3, ?_, ?_⟩
    · intro g n k e; exact (hs ⟨g, n, k, e⟩).elim
    · intro g n k e; exact (hs ⟨g, n, k, e⟩).elim

/-! ### A call alone -/

theorem Kept.trans {A B C : CState K V L} {evs evs' : List (Conc.Event K V L)} (h : Kept A evs B)
    (h' : Kept B evs' C) : Kept A (evs ++ evs') C := by
  induction h with
  | nil => exact h'
  | cons h1 _ ih => exact .cons h1 (ih h')

/-- The call `t` can end, or leave the contract, with steps of its own only. -/
def Solo (M : Shop K V L) (A : CState K V L) (t : Nat) : Prop :=
  ∃ evs N, Runs M evs N ∧ (∀ e ∈ evs, ∃ n, e = .act t n) ∧
    ((∃ r N', Next N (some (.ret t r)) N') ∨ Left A evs)

theorem solo_step {A : CState K V L} {w : World K V} (h : CSim M A w) (ht : M.calls t = some st)
    (hn : ∀ ch A' w', CSim (stepped M t (advance M ch st)) A' w' →
      Solo (stepped M t (advance M ch st)) A' t) : Solo M A t := by
  obtain ⟨ch, hch⟩ := h.canStep ht
  have hx : Next M (some (.act t ch.base.new)) (stepped M t (advance M ch st)) := .act ht hch
  rcases h.next hx with ⟨A', w', h1, ⟨h2, _⟩ | ⟨e, h2, h3⟩⟩ | ⟨e, h2, h3⟩
  · cases h2
  · cases h2
    obtain ⟨evs, N, h4, h5, h6⟩ := hn ch A' w' h1
    refine ⟨_ :: evs, N, .cons hx h4, ?_, ?_⟩
    · intro e he
      rcases List.mem_cons.1 he with rfl | he
      · exact ⟨_, rfl⟩
      · exact h5 e he
    · rcases h6 with h6 | ⟨pre, e', post, B, h7, h8, h9⟩
      · exact .inl h6
      · exact .inr ⟨_ :: pre, e', post, B, by rw [h7]; rfl, .cons h3 h8, h9⟩
  · cases h2
    refine ⟨[_], _, .cons hx .nil, ?_, .inr ⟨[], _, [], A, rfl, .nil, h3⟩⟩
    intro e he
    exact ⟨_, List.mem_singleton.1 he⟩

theorem solo_calm : ∀ {k : Nat} {M : Shop K V L} {A : CState K V L} {w : World K V}
    {st : Stage K V L}, CSim M A w → M.calls t = some st → Few k st → Solo M A t
  | 0, M, A, w, st, _, ht, hf =>
    ⟨[], M, .nil, (by intro e he; cases he), .inl (canEnd_of_rank ht hf)⟩
  | k + 1, M, A, w, st, h, ht, hf => by
    refine solo_step h ht fun ch A' w' h' => solo_calm (k := k) h' stepped_calls ?_
    have h1 := few_advance (M := M) (ch := ch) hf.1
    exact ⟨h1.1, Nat.le_trans h1.2 (by have := hf.2; omega)⟩

theorem solo_forced : ∀ {k : Nat} {M : Shop K V L} {A : CState K V L} {w : World K V}
    {st : Stage K V L}, CSim M A w → M.calls t = some st → Forced M.session.labels l k st →
    Solo M A t
  | 0, M, A, w, st, _, ht, hf => by
    obtain ⟨r, ls, rfl⟩ := forced_zero hf
    exact ⟨[], M, .nil, (by intro e he; cases he), .inl ⟨_, _, .ret ht⟩⟩
  | k + 1, M, A, w, st, h, ht, hf =>
    solo_step h ht fun ch A' w' h' => solo_forced (k := k) h' stepped_calls (forced_advance hf)

/-- The stages that a call can be at. -/
def Good (st : Stage K V L) : Prop :=
  st.calm ∨ (∃ c, st = .start c) ∨ ∃ c l n d h, st = .setting c l n d ∧ c = .forceSetHead l h

theorem good_advance {ch : CChoice K V L} (h : Good st) : Good (advance M ch st).1 := by
  have forced : ∀ {labels l k st}, Forced labels l k st → Good (K := K) (V := V) (L := L) st := by
    intro labels l k st h
    cases h with
    | start => exact .inr (.inl ⟨_, rfl⟩)
    | fresh => exact .inr (.inr ⟨_, _, _, _, _, rfl, rfl⟩)
    | stale => exact .inr (.inr ⟨_, _, _, _, _, rfl, rfl⟩)
    | done => exact .inl trivial
  rcases h with h | ⟨c, rfl⟩ | ⟨c, l, n, d, h, rfl, rfl⟩
  · exact .inl (few_advance h).1
  · by_cases hf : isForce c
    · cases c with
      | forceSetHead l h =>
        exact forced (forced_advance (l := l) (k := 2) (.start (Nat.le_refl _)))
      | _ => cases hf
    · exact .inl (calm_begins hf)
  · exact forced (forced_advance (l := l) (k := 3) (.stale (Nat.le_refl _)))

theorem good_runs {evs : List (Conc.Event K V L)} (hr : Runs M evs N) :
    (∀ t st, M.calls t = some st → Good st) → ∀ t st, N.calls t = some st → Good st := by
  induction hr with
  | nil => exact id
  | @cons M e M' rest N hn _ ih =>
    intro h
    refine ih ?_
    intro u st hu
    cases hn with
    | @inv t c _ =>
      change (if u = t then _ else M.calls u) = _ at hu
      split at hu
      · cases hu; exact .inr (.inl ⟨_, rfl⟩)
      · exact h u st hu
    | @act t st' ch ht _ =>
      change (if u = t then _ else M.calls u) = _ at hu
      split at hu
      · cases hu; exact good_advance (h t st' ht)
      · exact h u st hu
    | @ret t r ls _ =>
      change (if u = t then _ else M.calls u) = _ at hu
      split at hu
      · cases hu
      · exact h u st hu
    | cache => exact h u st hu
    | evict => exact h u st hu

theorem solo {A : CState K V L} {w : World K V} (h : CSim M A w) (ht : M.calls t = some st)
    (hg : Good st) : Solo M A t := by
  rcases hg with hg | ⟨c, rfl⟩ | ⟨c, l, n, d, i, rfl, rfl⟩
  · exact solo_calm h ht ⟨hg, Nat.le_refl _⟩
  · by_cases hf : isForce c
    · cases c with
      | forceSetHead l i => exact solo_forced (l := l) (k := 2) h ht (.start (Nat.le_refl _))
      | _ => cases hf
    · exact solo_step h ht fun ch A' w' h' =>
        solo_calm h' stepped_calls ⟨calm_begins hf, Nat.le_refl _⟩
  · exact solo_forced (l := l) (k := 3) h ht (.stale (Nat.le_refl _))

end Verif.Conc
