import Verif.Lemmas.ApiBuild

/-!
A call uses up no name but the one that it was free to choose.
-/

set_option linter.unusedSectionVars false

namespace Verif.Api

open Spec SimpleBuilder Store World Session

variable {K V L : Type} [LinearOrder K] [LinearOrder V] [DecidableEq L]
  {s : Session K V L} {ch : Choice K V L}

/-- A name that neither a layer nor a builder has. -/
def Session.Free (s : Session K V L) (n : Name) : Prop :=
  s.store.get? n = none ∧ (∀ b ∈ s.builders, b.name ≠ n) ∧ n ∉ s.lost

/-- The names that the specification calls new are those. -/
theorem Sim.free {w : World K V} {a : State K V L} (h : Sim s w a) {n : Nat} :
    a.Fresh n ↔ s.Free n := by
  refine ⟨fun hf => ?_, fun hf => (h.fresh hf.1 hf.2.1 hf.2.2).1⟩
  refine ⟨by rw [← h.store]; exact h.layers.unknown.2 ⟨hf.1, hf.2.1⟩, ?_, by rw [← h.lost]; exact hf.2.2.2⟩
  intro x hx
  obtain ⟨i, hi⟩ := List.getElem?_of_mem hx
  have hl : i < a.builders.length := by
    rw [← h.buildersLength]; exact (List.getElem?_eq_some_iff.1 hi).1
  obtain ⟨x', hx', hxy⟩ := h.builder (List.getElem?_eq_getElem hl)
  rw [hi] at hx'
  cases hx'
  rw [← hxy.name]
  exact hf.2.2.1 _ (List.getElem_mem hl)

namespace Session

theorem free_loading {n m : Name} {r : Ans K V L}
    {k : InternalLayer K V → Session K V L → Ans K V L × Session K V L} (hs : s.Free n)
    (hk : ∀ l c, (k l { s with cache := c }).2.Free n) : (s.loading m r k).2.Free n := by
  unfold loading load
  split
  · rename_i l s' h
    cases hg : s.store.getLayer s.cache m with
    | ok q =>
      rw [hg] at h
      obtain ⟨r, cs⟩ := q
      simp only [Prod.mk.injEq] at h
      rw [← h.2]
      exact hk l _
    | err => rw [hg] at h; simp at h
    | panic => rw [hg] at h; simp at h
  all_goals
    rename_i s' h
    cases hg : s.store.getLayer s.cache m with
    | ok q =>
      rw [hg] at h
      obtain ⟨r, cs⟩ := q
      simp only [Prod.mk.injEq] at h
      rw [← h.2]
      exact hs
    | err => rw [hg] at h; simp only [Prod.mk.injEq] at h; rw [← h.2]; exact hs
    | panic => rw [hg] at h; simp only [Prod.mk.injEq] at h; rw [← h.2]; exact hs

theorem free_withLayer {n : Name} {i : Nat} {k : InternalLayer K V → Ans K V L × Session K V L}
    (hs : s.Free n) (hk : ∀ l, (k l).2.Free n) : (s.withLayer i k).2.Free n := by
  unfold withLayer
  split
  · exact hk _
  · exact hs

theorem free_withBuilder {n : Name} {i : Nat} {k : HeldBuilder K V → Ans K V L × Session K V L}
    (hs : s.Free n) (hk : ∀ b ∈ s.builders, (k b).2.Free n) : (s.withBuilder i k).2.Free n := by
  unfold withBuilder
  split
  · rename_i x hx; exact hk x (List.mem_of_getElem? hx)
  · exact hs

theorem free_apply {n new : Name} (hs : s.Free n) (hn : n ≠ new) (pl : Plan K V) :
    Store.get? (pl.apply new s.store).2 n = none := by
  cases pl with
  | existing r => exact hs.1
  | write e => exact (get?_cons_ne (Ne.symm hn) e).trans hs.1

theorem free_register {n new : Name} (hs : s.Free n) (hn : n ≠ new) (l : InternalLayer K V)
    (p : Out (Plan K V)) : (s.register new l p).2.Free n := by
  unfold register
  split
  · rename_i pl
    refine ⟨?_, hs.2⟩
    show Store.get? (registerRollup (pl.apply new s.store).2 l.name (pl.apply new s.store).1) n = none
    unfold registerRollup
    split
    · exact free_apply hs hn pl
    · rw [get?_setRollup, free_apply hs hn pl]
      split <;> rfl
  · exact hs
  · exact hs

theorem free_squashed {n : Name} (hs : s.Free n) (hn : n ≠ ch.new) (p : Out (Plan K V)) :
    (s.squashed ch p).2.Free n := by
  unfold squashed
  split
  · rename_i pl
    have : Free { s with store := (pl.apply ch.new s.store).2, cache := ch.keep2 s.cache } n :=
      ⟨free_apply hs hn pl, hs.2⟩
    exact free_loading this (fun _ _ => ⟨this.1, this.2⟩)
  · exact hs
  · exact hs

theorem free_merged {n new : Name} (hs : s.Free n) (hn : n ≠ new) (p : Out (Plan K V)) :
    (s.merged new p).2.Free n := by
  unfold merged
  split
  · rename_i pl
    exact ⟨free_apply hs hn pl, hs.2⟩
  · exact hs
  · exact hs

theorem free_setLock {n : Name} (hs : s.Free n) {b : Nat} {x : HeldBuilder K V} (hx : x ∈ s.builders)
    (l : BuilderLock K V) : (s.setLock b x l).Free n := by
  refine ⟨hs.1, ?_, hs.2.2⟩
  intro y hy
  rcases List.mem_or_eq_of_mem_set hy with hy | rfl
  · exact hs.2.1 y hy
  · exact hs.2.1 x hx

theorem free_committing {n : Name} (hs : s.Free n) {b : Nat} {x : HeldBuilder K V}
    (hx : x ∈ s.builders) {k : Session K V L → Ans K V L × Session K V L}
    (hk : ∀ s' : Session K V L, s'.Free n → (k s').2.Free n) : (s.committing ch b x k).2.Free n := by
  unfold Session.committing
  split
  · exact free_setLock hs hx _
  · rename_i sb l _
    split
    · exact free_setLock hs hx _
    · refine hk _ ⟨?_, (free_setLock hs hx l).2⟩
      exact (get?_cons_ne (hs.2.1 x hx) _).trans hs.1

theorem free_applied {n : Name} (hs : s.Free n) {b : Nat} {x : HeldBuilder K V}
    (hx : x ∈ s.builders) (run) (o : Out (List (Op K V))) : (s.applied ch b x run o).2.Free n := by
  unfold Session.applied
  split
  · exact free_setLock hs hx _
  · exact hs
  · exact hs

theorem free_snoc {n : Name} (hs : s.Free n) {x : HeldBuilder K V} (hx : n ≠ x.name) :
    ({ s with builders := s.builders ++ [x] } : Session K V L).Free n := by
  refine ⟨hs.1, ?_, hs.2.2⟩
  intro y hy
  rcases List.mem_append.1 hy with hy | hy
  · exact hs.2.1 y hy
  · rw [List.mem_singleton] at hy; subst hy; exact Ne.symm hx

/-- A call uses up no other name. -/
theorem free_perform {n : Name} (hs : s.Free n) (hn : n ≠ ch.new) (c : Req K V L) :
    (s.perform ch c).2.Free n := by
  have hg : ∀ l (c : Cache K V), (give l { s with cache := c }).2.Free n := fun _ _ => ⟨hs.1, hs.2⟩
  have hc : ∀ c : Cache K V, ({ s with cache := c } : Session K V L).Free n := fun _ => ⟨hs.1, hs.2⟩
  cases c with
  | createGraph l => exact ⟨hs.1, hs.2⟩
  | openGraph l => exact ⟨hs.1, hs.2⟩
  | deleteGraph l => exact ⟨hs.1, hs.2⟩
  | dropGraph l => exact ⟨hs.1, hs.2⟩
  | graphs => exact hs
  | head l =>
    show (s.head l).2.Free n
    unfold Session.head
    split
    · exact hs
    · exact free_loading hs (fun _ _ => ⟨hs.1, hs.2⟩)
    · exact hs
    · exact hs
  | setHead l i => exact free_withLayer hs (fun _ => ⟨hs.1, hs.2⟩)
  | forceSetHead l i => exact free_withLayer hs (fun _ => ⟨hs.1, hs.2⟩)
  | forceSetHeadVersion l i v => exact free_withLayer hs (fun _ => ⟨hs.1, hs.2⟩)
  | getLayer m => exact free_loading hs hg
  | createBase => exact free_snoc hs hn
  | merge ns => exact free_merged hs hn _
  | openWrite i => exact free_withLayer hs (fun _ => free_loading hs (fun _ c => free_snoc (hc c) hn))
  | parent i =>
    refine free_withLayer hs (fun x => ?_)
    split
    · exact hs
    · exact free_loading hs hg
  | squash i => exact free_withLayer hs (fun _ => free_loading hs (fun _ c => free_squashed (hc c) hn _))
  | squashUpto i j =>
    exact free_withLayer hs (fun _ => free_withLayer hs (fun _ =>
      free_loading hs (fun _ c => free_squashed (hc c) hn _)))
  | rollup i => exact free_withLayer hs (fun _ => free_loading hs (fun _ c => free_register (hc c) hn _ _))
  | rollupUpto i j =>
    exact free_withLayer hs (fun _ => free_withLayer hs (fun _ =>
      free_loading hs (fun _ c => free_register (hc c) hn _ _)))
  | impreciseRollupUpto i j =>
    exact free_withLayer hs (fun _ => free_withLayer hs (fun _ =>
      free_loading hs (fun _ c => free_register (hc c) hn _ _)))
  | stackNames i => exact free_withLayer hs (fun _ => hs)
  | layerName i => exact free_withLayer hs (fun _ => hs)
  | parentName i => exact free_withLayer hs (fun _ => hs)
  | query i q => exact free_withLayer hs (fun _ => hs)
  | additions i q => exact free_withLayer hs (fun _ => hs)
  | removals i q => exact free_withLayer hs (fun _ => hs)
  | builderName b => exact free_withBuilder hs (fun _ _ => hs)
  | builderParent b =>
    refine free_withBuilder hs (fun x _ => ?_)
    split
    · exact hs
    · exact ⟨hs.1, hs.2⟩
  | edit b e => exact free_withBuilder hs (fun x hx => free_setLock hs hx _)
  | committed b => exact free_withBuilder hs (fun _ _ => hs)
  | commitNoLoad b => exact free_withBuilder hs (fun x hx => free_committing hs hx (fun _ h => h))
  | commit b =>
    refine free_withBuilder hs (fun x hx => free_committing hs hx (fun s' h => ?_))
    exact free_loading (s := { s' with cache := ch.keep2 s'.cache }) ⟨h.1, h.2⟩
      (fun _ _ => ⟨h.1, h.2⟩)
  | applyDelta b i =>
    exact free_withBuilder hs (fun x hx => free_withLayer hs (fun _ => free_applied hs hx _ _))
  | applyDiff b i =>
    exact free_withBuilder hs (fun x hx => free_withLayer hs (fun _ => free_applied hs hx _ _))

end Session

end Verif.Api
